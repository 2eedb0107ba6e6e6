import Verif.Model.Text

/-!
# JSON documents and `nlohmann::json::dump(4)`

The library itself is external code; this is the part of its documented output format that the
metadata documents of this project exercise (no negative or fractional numbers).
-/

namespace AZ

/-- The JSON values the project builds. `flt n` is a `double` holding the integer `n < 10^15`
(`std::vector<double> scales`, `src/streaming/zarr.stream.cpp:819-841`), printed with a trailing `.0`.
Objects list their members in key order (`nlohmann::json` objects are `std::map`s). -/
inductive Json where
  | null
  | num (n : Nat)
  | flt (n : Nat)
  | str (s : Text)
  | arr (xs : List Json)
  | obj (ms : List (Text × Json))
  deriving Repr, Inhabited

namespace Json

/-- Hexadecimal digit used in `\u00xx` escapes (lower case, as nlohmann's serializer).
Models nlohmann `dump(4)`, called at `src/streaming/zarr.stream.cpp:716`. -/
def hexDigit (n : Nat) : Char := Nat.digitChar n

/-- Escape of one character by nlohmann's serializer with `ensure_ascii = false`: quote, backslash,
the five short control escapes, other control characters as `\u00xx`, everything else verbatim.
Models nlohmann `dump(4)`, called at `src/streaming/zarr.stream.cpp:716`. -/
def escapeChar (c : Char) : Text :=
  if c = '"' then ['\\', '"']
  else if c = '\\' then ['\\', '\\']
  else if c.toNat = 8 then ['\\', 'b']
  else if c.toNat = 9 then ['\\', 't']
  else if c.toNat = 10 then ['\\', 'n']
  else if c.toNat = 12 then ['\\', 'f']
  else if c.toNat = 13 then ['\\', 'r']
  else if c.toNat < 32 then ['\\', 'u', '0', '0', hexDigit (c.toNat / 16), hexDigit (c.toNat % 16)]
  else [c]

/-- A quoted string. Models nlohmann `dump(4)`, called at `src/streaming/zarr.stream.cpp:716`. -/
def quote (s : Text) : Text := '"' :: s.flatMap escapeChar ++ ['"']

/-- Line break followed by `ind` spaces.
Models nlohmann `dump(4)`, called at `src/streaming/zarr.stream.cpp:716`. -/
def newline (ind : Nat) : Text := '\n' :: List.replicate ind ' '

mutual
/-- `dump(4)` at indentation `ind` (callers: `src/streaming/zarrv2.array.writer.cpp:173`,
`zarrv3.array.writer.cpp:234`, `zarr.stream.cpp:716, 750, 785`). -/
def dump (ind : Nat) : Json → Text
  | .null => ['n', 'u', 'l', 'l']
  | .num n => decimal n
  | .flt n => decimal n ++ ['.', '0']
  | .str s => quote s
  | .arr [] => ['[', ']']
  | .arr (x :: xs) => '[' :: (newline (ind + 4) ++ dump (ind + 4) x ++ dumpItems (ind + 4) xs ++
      newline ind ++ [']'])
  | .obj [] => ['{', '}']
  | .obj ((k, v) :: ms) => '{' :: (newline (ind + 4) ++ quote k ++ [':', ' '] ++ dump (ind + 4) v ++
      dumpMembers (ind + 4) ms ++ newline ind ++ ['}'])
/-- The elements of an array after the first, each preceded by `,` and on its own line.
Models nlohmann `dump(4)`, called at `src/streaming/zarr.stream.cpp:716`. -/
def dumpItems (ind : Nat) : List Json → Text
  | [] => []
  | x :: xs => ',' :: newline ind ++ dump ind x ++ dumpItems ind xs
/-- The members of an object after the first.
Models nlohmann `dump(4)`, called at `src/streaming/zarr.stream.cpp:716`. -/
def dumpMembers (ind : Nat) : List (Text × Json) → Text
  | [] => []
  | (k, v) :: ms => ',' :: newline ind ++ quote k ++ [':', ' '] ++ dump ind v ++ dumpMembers ind ms
end

end Json
end AZ
