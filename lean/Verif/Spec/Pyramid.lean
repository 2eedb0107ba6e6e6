import Verif.Spec.Index
import Verif.Model.Settings

/-!
# Specification: the levels of a multiscale dataset

Along every dimension that is not a channel the size is halved, rounding up, from each level to the next;
chunks never exceed the array and shards never exceed the number of chunks. A size of 0 stands for an
unbounded append dimension.
-/

namespace Spec

/-- Size of a dimension at level `i`. -/
def levelSize (channel : Bool) (size i : Nat) : Nat := if channel then size else ceilDiv size (2 ^ i)

/-- Chunk size at level `i`: as configured, but (below level 0) not larger than the array. -/
def levelChunk (channel : Bool) (size chunk i : Nat) : Nat :=
  if channel || size = 0 || i = 0 then chunk else min chunk (levelSize channel size i)

/-- Chunks per shard at level `i`: as configured, but (below level 0) not more than there are chunks. -/
def levelShard (channel : Bool) (size chunk shard i : Nat) : Nat :=
  if channel || i = 0 then shard
  else if size = 0 then 1
  else min shard (ceilDiv (levelSize channel size i) (levelChunk channel size chunk i))

/-- The configured chunk no longer fits level `i` of this dimension. -/
def chunkShrinks (channel : Bool) (size chunk i : Nat) : Bool :=
  !channel && size ≠ 0 && levelSize channel size i < chunk

end Spec

namespace AZ
open Spec

/-- A dimension of the settings is a channel dimension. -/
def DimProps.isChannel (d : DimProps) : Bool := d.kind = 1

/-- Sizes, chunk sizes and shard sizes of a list of dimensions at level `i`. -/
def sizesAt (i : Nat) (ds : List DimProps) : List Nat := ds.map fun d => levelSize d.isChannel d.arraySize i
def chunksAt (i : Nat) (ds : List DimProps) : List Nat :=
  ds.map fun d => levelChunk d.isChannel d.arraySize d.chunkSize i
def shardsAt (i : Nat) (ds : List DimProps) : List Nat :=
  ds.map fun d => levelShard d.isChannel d.arraySize d.chunkSize d.shardSize i

end AZ
