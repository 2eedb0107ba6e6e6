import Verif.Model.Writer
import Verif.Lemmas.WriterCommon
import Verif.Model.Stream

/-! # A concrete, ragged configuration used to show that hypotheses are satisfiable -/

namespace AZ.Sample

/-- t (unbounded, chunk 2), c (3, chunk 2, shard 2), y (5, chunk 2, shard 3), x (7, chunk 3, shard 1),
16-bit pixels. -/
def dims : ArrayDims where
  append := ⟨"t", .time, 0, 2, 1⟩
  inner := [⟨"c", .channel, 3, 2, 2⟩]
  height := ⟨"y", .space, 5, 2, 3⟩
  width := ⟨"x", .space, 7, 3, 1⟩
  dtype := .u16

def cfg : WConfig where
  dims := dims
  level := 0
  bucket := none
  storePath := "/tmp/a.zarr".toList
  compression := none
  version := .v2

/-- Storage that always works, compression that prepends a byte. -/
def env : Env where
  compress := fun _ _ b => some (7 :: b)
  makeSinks := fun _ => true
  makeMetaSink := fun _ => true
  write := fun _ _ _ => .stored
  finalize := fun _ => true

theorem dims_valid : dims.Valid := by decide
theorem dims_fits : dims.Fits := by decide

theorem goodEnv (c : WConfig) : GoodEnv env c :=
  ⟨fun _ => rfl, fun _ => rfl, fun _ _ _ => rfl, fun _ => rfl, fun _ _ _ _ => rfl⟩

/-- A frame of the sample array (70 bytes), different for different `k`. -/
def frame (k : Nat) : Bytes := (List.range 70).map fun i => UInt8.ofNat (i * 3 + k)

theorem frame_length (k : Nat) : (frame k).length = 70 := by simp [frame]

/-- Eleven frames in three calls. -/
def calls : List (List Bytes) := [[0, 1, 2, 3], [4], [5, 6, 7, 8, 9, 10]].map fun c => c.map frame

theorem calls_sized : ∀ c ∈ calls, ∀ f ∈ c, f.length = 70 := by
  intro c hc f hf
  obtain ⟨_, _, rfl⟩ := List.mem_map.1 hc
  obtain ⟨k, _, rfl⟩ := List.mem_map.1 hf
  exact frame_length k

/-- A world with a writable parent directory, no files and a JSON parser that accepts everything. -/
def world : World where
  parentExists := fun _ => true
  parentIsDir := fun _ => true
  parentWritable := fun _ => true
  parseJson := fun _ => some [0x7b, 0x7d]
  storeOk := fun _ => true
  files := fun _ => none

def dimT : DimProps := ⟨some "t".toList, 2, 0, 2, 1⟩
def dimC : DimProps := ⟨some "c".toList, 1, 3, 2, 2⟩
def dimY : DimProps := ⟨some "y".toList, 0, 5, 2, 3⟩
def dimX : DimProps := ⟨some "x".toList, 0, 7, 3, 1⟩

/-- Settings that give `cfg`: V2, uncompressed, with pyramid. -/
def settings : Settings where
  storePath := some "/tmp/a.zarr".toList
  customMetadata := none
  s3 := none
  compression := none
  dimensions := some [dimT, dimC, dimY, dimX]
  multiscale := true
  dataType := 1
  version := 2

/-- The same with Blosc/zstd. -/
def settingsZ : Settings := { settings with compression := some ⟨1, 2, 5, 1⟩ }

/-- V3, no pyramid. -/
def settings3 : Settings := { settings with
  multiscale := false
  version := 3 }

end AZ.Sample
