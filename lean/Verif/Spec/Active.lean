import Verif.Model.PyObject

/-! # What a Python program should be told about its stream -/

namespace Spec
open AZ.Py

/-- What the program should see: as long as no call has raised, the stream is active; after that it is not. -/
def Told : List Seen → Prop
  | [] => True
  | .answered b :: l => b = true ∧ Told l
  | .returned :: l => Told l
  | .raised :: l => ∀ b, .answered b ∈ l → b = false

end Spec
