/-!
# Machine-level vocabulary of the model

C++ outcomes, fixed-width wrap-around and byte buffers.
-/

namespace AZ

/-- Outcome of a modelled C++ call: normal return, a thrown `std::exception`
(`EXPECT`/`CHECK` in `src/streaming/macros.hh:5-13`, library exceptions), or undefined behaviour
(out-of-bounds access, NULL dereference, division by zero). -/
inductive Res (α : Type) where
  | ok (a : α)
  | throw
  | ub
  deriving Repr, DecidableEq

namespace Res

/-- Sequencing: the second step runs if the first one returned.
Auxiliary: `;` in all of `src/streaming/*.cpp`. -/
@[inline] def bind {α β : Type} (r : Res α) (f : α → Res β) : Res β :=
  match r with
  | ok a => f a
  | throw => throw
  | ub => ub

instance : Monad Res where
  pure := Res.ok
  bind := Res.bind

@[simp] theorem bind_ok {α β : Type} (a : α) (f : α → Res β) : (Res.ok a >>= f) = f a := rfl
@[simp] theorem bind_throw {α β : Type} (f : α → Res β) : ((Res.throw : Res α) >>= f) = Res.throw := rfl
@[simp] theorem bind_ub {α β : Type} (f : α → Res β) : ((Res.ub : Res α) >>= f) = Res.ub := rfl
@[simp] theorem pure_eq {α : Type} (a : α) : (pure a : Res α) = Res.ok a := rfl

end Res

/-- `CHECK(e)` / `EXPECT(e, ...)`: throws `std::runtime_error` when the condition is false
(`src/streaming/macros.hh:5-13`). -/
def check (b : Bool) : Res Unit := if b then Res.ok () else Res.throw

@[simp] theorem check_true : check true = Res.ok () := rfl
@[simp] theorem check_false : check false = Res.throw := rfl

/-- Value of an expression evaluated in `uint32_t`.
Auxiliary: C++ arithmetic in all of `src/streaming/*.cpp`. -/
def u32 (n : Nat) : Nat := n % 2 ^ 32

/-- Value of an expression evaluated in `size_t`/`uint64_t` (64-bit targets).
Auxiliary: C++ arithmetic in all of `src/streaming/*.cpp`. -/
def u64 (n : Nat) : Nat := n % 2 ^ 64

theorem u32_of_lt {n : Nat} (h : n < 2 ^ 32) : u32 n = n := Nat.mod_eq_of_lt h
theorem u64_of_lt {n : Nat} (h : n < 2 ^ 64) : u64 n = n := Nat.mod_eq_of_lt h

/-- Raw bytes (`std::vector<std::byte>`, file contents, caller buffers).
Auxiliary: all of `src/streaming/*.cpp`. -/
abbrev Bytes := List UInt8

/-- Positional write into a growable byte sequence: bytes before `off` are kept (zero-filled if the
sequence is shorter, as for `seekp` past the end of a file), `data` replaces the following bytes, and
the rest is kept. Models `file_.seekp(offset); file_.write(..)` in `src/streaming/file.sink.cpp:20-21`
and, when in range, `std::copy` into a buffer. -/
def pwrite (buf : Bytes) (off : Nat) (data : Bytes) : Bytes :=
  (buf ++ List.replicate (off - buf.length) 0).take off ++ data ++ buf.drop (off + data.length)

/-- `data[start, stop)` of a span.
Auxiliary: `std::span::subspan`, for instance `src/streaming/zarr.stream.cpp:419-476`. -/
def slice (data : Bytes) (start len : Nat) : Bytes := (data.drop start).take len

end AZ
