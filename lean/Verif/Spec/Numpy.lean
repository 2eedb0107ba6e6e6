import Verif.Model.Python

/-! # The elements of a numpy array in C order -/

namespace AZ.Spec
open Py

/-- Addresses of the elements of an array in C order: the last axis varies fastest. -/
def cOrder : List (Nat × Int) → Int → List Int
  | [], a => [a]
  | (n, stride) :: axes, a => (List.range n).flatMap fun (i : Nat) => cOrder axes (a + (i : Int) * stride)

/-- The bytes of the elements in C order (`a.tobytes()`). -/
def tobytes (a : Py.Array) : Bytes := (cOrder a.axes a.ptr).flatMap fun x => bytesAt a.mem x a.itemsize

/-- Every axis' stride is the size of one step along it in a C-contiguous block. -/
def CContiguous (itemsize : Nat) : List (Nat × Int) → Prop
  | [] => True
  | (_, stride) :: axes => stride = (itemsize * (axes.map (·.1)).prod : Nat) ∧ CContiguous itemsize axes

/-- numpy's C-contiguity: the array is empty, or every axis with more than one element has the stride of one step along
it in a C-contiguous block. -/
def NumpyContiguous (itemsize : Nat) (axes : List (Nat × Int)) : Prop :=
  (∃ d ∈ axes, d.1 = 0) ∨
    ∀ (before : List (Nat × Int)) (n : Nat) (stride : Int) (after : List (Nat × Int)), axes = before ++ (n, stride) :: after → n ≠ 1 →
      stride = (itemsize * (after.map (·.1)).prod : Nat)

/-- The indices of an array with these axes in C order. -/
def indices : List (Nat × Int) → List (List Nat)
  | [] => [[]]
  | (n, _) :: axes => (List.range n).flatMap fun i => (indices axes).map fun is => i :: is

/-- The address of the element with the given index: the start plus index times stride for every axis. -/
def address : List (Nat × Int) → Int → List Nat → Int
  | (_, stride) :: axes, a, i :: is => address axes (a + (i : Int) * stride) is
  | _, a, _ => a

/-- `a[index]`, as bytes. -/
def element (a : Py.Array) (index : List Nat) : Bytes := bytesAt a.mem (address a.axes a.ptr index) a.itemsize

/-- The two-dimensional parts `a[index, :, :]` of an array in C order of their indices. -/
def planes (a : Py.Array) : List (Py.Array × List Nat) :=
  (indices (a.axes.take (a.axes.length - 2))).map fun is => (a, is)

end AZ.Spec
