import Verif.Spec.Index

/-!
# Specification: what a version 3 dataset shows where a frame should be

Reading aid for C81 and C83. The implementation fills the index of a shard wrongly (C16): of every group of `shardChunks` append chunks,
only the first one can be read, and it shows the frames of the last chunk of the group that was written; the others read as zeros.
With `shardChunks = 1` this is the correct dataset.
-/

namespace Spec

/-- What is shown in place of frame `q` of a level: `perChunk` frames per append chunk, `shardChunks` append chunks per shard,
`frameBytes` bytes per frame, and `stored` the frames in the store. -/
def shownFrame (perChunk shardChunks frameBytes : Nat) (stored : List (List UInt8)) (q : Nat) : List UInt8 :=
  let zeros := List.replicate frameBytes 0
  let chunk := q / perChunk
  let lastChunk := chunk + (min shardChunks (ceilDiv stored.length perChunk - chunk) - 1)
  if chunk % shardChunks = 0 then stored.getD (lastChunk * perChunk + q % perChunk) zeros else zeros

/-- With one append chunk per shard, it is the frame itself, or zeros after the last one. -/
theorem shownFrame_one (F B : Nat) (fs : List (List UInt8)) (q : Nat) :
    shownFrame F 1 B fs q = fs.getD q (List.replicate B 0) := by
  unfold shownFrame
  dsimp only
  rw [if_pos (Nat.mod_one _)]
  have e : min 1 (ceilDiv fs.length F - q / F) - 1 = 0 := by omega
  rw [e, Nat.add_zero, Nat.mul_comm, Nat.div_add_mod]

/-- Seven frames in chunks of two, two chunks to a shard: the first shard shows its second chunk, and the second shard its second
chunk, in which only one frame was written. -/
example : (List.range 8).map (shownFrame 2 2 1 [[1], [2], [3], [4], [5], [6], [7]]) =
    [[3], [4], [0], [0], [7], [0], [0], [0]] := by decide

end Spec
