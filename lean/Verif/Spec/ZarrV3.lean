import Verif.Spec.ZarrV2

/-!
# Specification: reading a sharded Zarr v3 array

From the Zarr v3 draft implemented by the project (`data/root/<array>/c` chunk prefix, `/` separator) and
its sharding transformer with `indexed` format: the chunk at grid position `l` belongs to the shard at
position `l / chunks_per_shard` and has, inside the shard, the C-order number of `l % chunks_per_shard`.
A shard object ends with the shard index: for every chunk of the shard, in C order, its offset and its
length, as little-endian unsigned 64-bit integers; an empty chunk has offset and length `2^64 - 1`. A
missing object or an empty chunk means fill value (zero).
-/

namespace Spec

/-- Little-endian unsigned integer. -/
def leNat : List UInt8 → Nat
  | [] => 0
  | b :: bs => b.toNat + 256 * leNat bs

/-- The index entry of chunk number `slot` in a shard object with `slots` chunks. `none`: the object is
too short for an index; `some none`: the chunk is empty. -/
def shardEntry (raw : List UInt8) (slots slot : Nat) : Option (Option (Nat × Nat)) :=
  if raw.length < 16 * slots then none
  else
    let index := raw.drop (raw.length - 16 * slots)
    let offset := leNat ((index.drop (16 * slot)).take 8)
    let length := leNat ((index.drop (16 * slot + 8)).take 8)
    if offset = 2 ^ 64 - 1 ∧ length = 2 ^ 64 - 1 then some none else some (some (offset, length))

/-- The bytes of element `x`, for `chunks` (chunk shape), `shards` (chunks per shard) and `itemSize` as
declared in the array metadata. `dir` is the array's chunk prefix. `none`: unreadable. -/
def readV3 (file : List Char → Option (List UInt8)) (dir : List Char)
    (decode : List UInt8 → Option (List UInt8)) (chunks shards : List Nat) (itemSize : Nat) (x : List Nat) :
    Option (List UInt8) :=
  let l := gridOf chunks x
  match file (dir ++ chunkKey (gridOf shards l)) with
  | none => some (List.replicate itemSize 0)
  | some raw =>
    match shardEntry raw (prod shards) (ravel shards (withinOf shards l)) with
    | none => none
    | some none => some (List.replicate itemSize 0)
    | some (some (offset, length)) =>
      if offset + length ≤ raw.length then
        match decode ((raw.drop offset).take length) with
        | none => none
        | some chunk =>
          if chunk.length = prod chunks * itemSize then
            some ((chunk.drop (ravel chunks (withinOf chunks x) * itemSize)).take itemSize)
          else none
      else none

end Spec
