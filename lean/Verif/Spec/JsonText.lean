/-!
# JSON texts (RFC 8259)

A reference parser, independent of the writer: a text is a single value surrounded by white space.
-/

namespace Spec

/-- JSON values. Numbers are their exact rational value; members are kept in order. -/
inductive JVal where
  | null
  | bool (b : Bool)
  | num (q : Rat)
  | str (s : List Char)
  | arr (xs : List JVal)
  | obj (ms : List (List Char × JVal))

namespace JVal

/-- The member of an object with the given key. -/
def get? : JVal → String → Option JVal
  | obj ms, k => (ms.find? fun m => m.1 == k.toList).map (·.2)
  | _, _ => none

/-- An array of numbers. -/
def nats (l : List Nat) : JVal := arr (l.map fun (n : Nat) => num (n : Rat))

end JVal

/-- Insignificant white space. -/
def isWs (c : Char) : Bool := c = ' ' || c = '\t' || c = '\n' || c = '\r'

def skipWs (t : List Char) : List Char := t.dropWhile isWs

/-- Value of a string of decimal digits. -/
def digitsValue (ds : List Char) : Nat := ds.foldl (fun a c => a * 10 + (c.toNat - 48)) 0

/-- One or more digits. -/
def digits (t : List Char) : Option (List Char × List Char) :=
  let ds := t.takeWhile Char.isDigit
  if ds.isEmpty then none else some (ds, t.dropWhile Char.isDigit)

/-- Integer part: no superfluous leading zero. -/
def intPart (t : List Char) : Option (Rat × List Char) :=
  match digits t with
  | none => none
  | some (ds, r) => if ds.head? = some '0' && ds.length > 1 then none else some ((digitsValue ds : Rat), r)

/-- Optional fraction. -/
def fracPart (t : List Char) : Option (Rat × List Char) :=
  match t with
  | '.' :: r =>
    match digits r with
    | none => none
    | some (ds, r') => some ((digitsValue ds : Rat) / 10 ^ ds.length, r')
  | _ => some (0, t)

/-- Optional exponent, as a factor. -/
def expPart (t : List Char) : Option (Rat × List Char) :=
  match t with
  | c :: r =>
    if c = 'e' || c = 'E' then
      match r with
      | '+' :: r => (digits r).map fun (ds, r') => (10 ^ digitsValue ds, r')
      | '-' :: r => (digits r).map fun (ds, r') => (1 / 10 ^ digitsValue ds, r')
      | r => (digits r).map fun (ds, r') => (10 ^ digitsValue ds, r')
    else some (1, t)
  | [] => some (1, t)

def unsignedNumber (t : List Char) : Option (Rat × List Char) := do
  let (i, r) ← intPart t
  let (f, r) ← fracPart r
  let (e, r) ← expPart r
  pure ((i + f) * e, r)

def number (t : List Char) : Option (Rat × List Char) :=
  match t with
  | '-' :: r => (unsignedNumber r).map fun (q, r') => (-q, r')
  | t => unsignedNumber t

/-- Hexadecimal digit. -/
def hexVal (c : Char) : Option Nat :=
  if '0' ≤ c ∧ c ≤ '9' then some (c.toNat - 48)
  else if 'a' ≤ c ∧ c ≤ 'f' then some (c.toNat - 87)
  else if 'A' ≤ c ∧ c ≤ 'F' then some (c.toNat - 55)
  else none

def hex4 (a b c d : Char) : Option Nat := do
  pure ((((← hexVal a) * 16 + (← hexVal b)) * 16 + (← hexVal c)) * 16 + (← hexVal d))

/-- The two-character escapes. -/
def shortEscape (c : Char) : Option Char :=
  if c = '"' then some '"' else if c = '\\' then some '\\' else if c = '/' then some '/'
  else if c = 'b' then some (Char.ofNat 8) else if c = 'f' then some (Char.ofNat 12)
  else if c = 'n' then some (Char.ofNat 10) else if c = 'r' then some (Char.ofNat 13)
  else if c = 't' then some (Char.ofNat 9) else none

/-- The characters of a string after the opening quote; control characters must be escaped. -/
def stringBody : List Char → Option (List Char × List Char)
  | [] => none
  | c :: r =>
    if c = '"' then some ([], r)
    else if c = '\\' then
      match r with
      | [] => none
      | e :: r =>
        match shortEscape e with
        | some x => (stringBody r).map fun (s, r') => (x :: s, r')
        | none =>
          if e ≠ 'u' then none else
          match r with
          | a :: b :: c :: d :: r =>
            match hex4 a b c d with
            | none => none
            | some n =>
              if n < 0xD800 ∨ 0xDFFF < n then (stringBody r).map fun (s, r') => (Char.ofNat n :: s, r')
              else if n ≤ 0xDBFF then
                match r with
                | s1 :: u1 :: a :: b :: c :: d :: r =>
                  match hex4 a b c d with
                  | none => none
                  | some m =>
                    if s1 = '\\' ∧ u1 = 'u' ∧ 0xDC00 ≤ m ∧ m ≤ 0xDFFF then
                      (stringBody r).map fun (s, r') =>
                        (Char.ofNat (0x10000 + (n - 0xD800) * 0x400 + (m - 0xDC00)) :: s, r')
                    else none
                | _ => none
              else none
          | _ => none
    else if c.toNat < 32 then none
    else (stringBody r).map fun (s, r') => (c :: s, r')

mutual
/-- One value (the number bounds the nesting and the number of elements). -/
def value : Nat → List Char → Option (JVal × List Char)
  | 0, _ => none
  | n + 1, t =>
    match skipWs t with
    | [] => none
    | c :: r =>
      if c = '"' then (stringBody r).map fun (s, r') => (.str s, r')
      else if c = '[' then
        match skipWs r with
        | ']' :: r' => some (.arr [], r')
        | _ => (items n r).map fun (xs, r') => (.arr xs, r')
      else if c = '{' then
        match skipWs r with
        | '}' :: r' => some (.obj [], r')
        | _ => (members n r).map fun (ms, r') => (.obj ms, r')
      else if ['n', 'u', 'l', 'l'].isPrefixOf (c :: r) then some (.null, r.drop 3)
      else if ['t', 'r', 'u', 'e'].isPrefixOf (c :: r) then some (.bool true, r.drop 3)
      else if ['f', 'a', 'l', 's', 'e'].isPrefixOf (c :: r) then some (.bool false, r.drop 4)
      else (number (c :: r)).map fun (q, r') => (.num q, r')
/-- The elements of an array, up to and including the closing bracket. -/
def items : Nat → List Char → Option (List JVal × List Char)
  | 0, _ => none
  | n + 1, t =>
    match value n t with
    | none => none
    | some (v, r) =>
      match skipWs r with
      | ',' :: r' => (items n r').map fun (vs, r'') => (v :: vs, r'')
      | ']' :: r' => some ([v], r')
      | _ => none
/-- The members of an object, up to and including the closing brace. -/
def members : Nat → List Char → Option (List (List Char × JVal) × List Char)
  | 0, _ => none
  | n + 1, t =>
    match skipWs t with
    | '"' :: r =>
      match stringBody r with
      | none => none
      | some (k, r) =>
        match skipWs r with
        | ':' :: r =>
          match value n r with
          | none => none
          | some (v, r) =>
            match skipWs r with
            | ',' :: r' => (members n r').map fun (ms, r'') => ((k, v) :: ms, r'')
            | '}' :: r' => some ([(k, v)], r')
            | _ => none
        | _ => none
    | _ => none
end

/-- A JSON text: one value surrounded by white space. -/
def parseJson (t : List Char) : Option JVal :=
  match value (t.length + 1) t with
  | some (v, r) => if (skipWs r).isEmpty then some v else none
  | none => none

end Spec
