import Verif.Spec.PlainText

/-! # What an endpoint says -/

namespace Spec

/-- A URL with the given scheme. -/
def HasScheme (scheme e : List Char) : Prop := ∃ rest, e = scheme ++ "://".toList ++ rest

/-- The endpoint asks for encryption: its scheme is `https`, in letters of either case (RFC 3986, 3.1). -/
def AsksForTls (e : List Char) : Prop := ∃ scheme, HasScheme scheme e ∧ scheme.map Char.toLower = "https".toList

end Spec
