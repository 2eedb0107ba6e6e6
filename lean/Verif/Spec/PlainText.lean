import Verif.Spec.Constraints

/-! # Strings for which the classification of characters is defined -/

namespace Spec
open AZ (Text Settings)

/-- Without the white space around it, `t` is empty or begins and ends with ASCII characters. -/
def PlainEnds (t : Text) : Prop :=
  ∀ u, Trimmed t u → (∀ c, u.head? = some c → c.toNat < 128) ∧ (∀ c, u.getLast? = some c → c.toNat < 128)

/-- The strings of the settings. -/
def stringsOf (s : Settings) : List Text :=
  s.storePath.toList ++ s.customMetadata.toList ++
    (s.s3.toList.flatMap fun x => x.endpoint.toList ++ x.bucketName.toList ++ x.accessKeyId.toList ++ x.secretAccessKey.toList) ++
    ((s.dimensions.getD []).flatMap fun d => d.name.toList)

end Spec
