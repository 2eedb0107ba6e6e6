import Verif.Model.Machine

/-!
# Text, paths and `std::to_string`
-/

namespace AZ

/-- Characters of a `std::string` holding UTF-8 text (file names, metadata documents).
Auxiliary: all strings of `src/streaming/*.cpp`. -/
abbrev Text := List Char

/-- `std::to_string` on an unsigned integer.
Called at `src/streaming/sink.creator.cpp:140-198` and zarr.stream.cpp:660-867. -/
def decimal (n : Nat) : Text := Nat.toDigits 10 n

/-- UTF-8 bytes of a text: what `metadata_str.data()` points to
(e.g. `src/streaming/zarrv2.array.writer.cpp:173-176`). -/
def utf8 (t : Text) : Bytes := t.flatMap String.utf8EncodeChar

end AZ
