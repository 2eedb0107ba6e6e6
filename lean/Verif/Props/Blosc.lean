import Verif.Spec.Blosc
import Verif.Props.ReadBackV3
import Verif.Props.Failures

set_option linter.unusedSimpArgs false

/-! # C55: chunks that Blosc cannot compress -/

namespace AZ
open Spec

theorem resize_zero (b : Bytes) : resize b 0 = [] := by simp [resize]

theorem resize_le {b : Bytes} {n : Nat} (h : n ≤ b.length) : resize b n = b.take n := by
  unfold resize
  rw [Nat.sub_eq_zero_of_le h]
  simp

/-- Negative return codes are noticed: the job keeps the buffer and reports an error. Other return codes, zero included, are
taken as a success: the chunk becomes the first `ret` bytes of the destination. -/
theorem blosc_job_cases (env : Env) {B : Blosc} (hB : BloscContract B) (p : BloscParams) (n : Nat) (b : Bytes) :
    (B.ret p n b < 0 → compressJob (env.withBlosc B) p n b = (b, ["Failed to compress chunk".toList])) ∧
    (0 ≤ B.ret p n b → compressJob (env.withBlosc B) p n b = ((B.dest p n b).take (B.ret p n b).toNat, [])) := by
  constructor
  · intro h
    unfold compressJob Env.withBlosc Blosc.job
    simp only [if_pos h]
  · intro h
    unfold compressJob Env.withBlosc Blosc.job
    have h1 := hB.small p n b
    have h2 := hB.dest p n b
    have h3 : ¬ B.ret p n b < 0 := Int.not_lt.2 h
    simp only [if_neg h3]
    rw [resize_le (by omega)]

theorem withBlosc_small (env : Env) {B : Blosc} (hB : BloscContract B) : SmallOverhead (env.withBlosc B) := by
  intro q n b out h
  have h' : B.job q n b = some out := h
  unfold Blosc.job at h'
  split at h'
  · cases h'
  · rename_i hn
    have h1 := hB.small q n b
    have h2 := hB.dest q n b
    simp only [Option.some.injEq] at h'
    rw [← h', resize_le (by omega), List.length_take]
    omega

section
variable {w : World} {env : Env} {fuel : Nat} {s : Settings} {cfg : WConfig} {cfgs : List WConfig}
  {a y x : DimProps} {inner : List DimProps} {root : Text} {calls : List (List Bytes)}

/-- **C55 is false** for every compressed version 2 stream whose chunks are larger than Blosc accepts: all appends and
destroy succeed, the chunk files that a readable dataset needs exist, and all of them are empty. -/
theorem huge_chunks_lost {B : Blosc} {q : CompressionSettings} (h : Setup w fuel s cfg cfgs) (hB : BloscContract B)
    (hE : StorageOk (env.withBlosc B) s) (hV : s.version = 2) (hcomp : s.compression = some q)
    (hbig : bloscMaxBuffer < prod ((a :: (inner ++ [y, x])).map (·.chunkSize)) * itemSize s.dataType)
    (hd : s.dimensions = some (a :: (inner ++ [y, x]))) (hr : StoredAt s root) (hfr : Fresh w s root)
    (hn : calls.flatten.length < 2 ^ 32)
    (hf : ∀ c ∈ calls, ∀ f ∈ c, f.length = y.arraySize * x.arraySize * itemSize s.dataType) :
    ∃ st tr, runStream w (env.withBlosc B) fuel s (calls.map List.flatten) =
        some (.ok (st, calls.map (fun c => c.flatten.length), tr)) ∧ st.error = [] ∧
      ∀ g l, g < ceilDiv calls.flatten.length (framesPer a inner) →
        InBounds ((inner ++ [y, x]).map fun d => ceilDiv d.arraySize d.chunkSize) l →
        fileInStore w cfg (levelDir root 0 ++ chunkKey (g :: l)) tr = some [] := by
  have hD := dimsOf h.valid h.commit hd
  rw [← hD.frame] at hf
  obtain ⟨st, tr, h1, h2, hs⟩ := session_v2 h hE hV hn hf
  refine ⟨st, tr, h1, h2, ?_⟩
  intro g l hg hl
  obtain ⟨rest, hrest⟩ := levelConfigs_head h.levels
  have h0 : cfgs[0]? = some cfg := by rw [hrest]; rfl
  rw [level_chunk_content h hr hfr hs hV h0 g l]
  have hg' : g < groups cfg (framesOfLevel cfg 0 calls.flatten).length := by
    rw [framesOfLevel_zero]
    unfold groups
    rw [hD.perChunk]
    exact hg
  have hl' : InBounds (nShape cfg.dims.tailDims) l := by
    rw [← zipWith_ceilDiv, hD.sizes, hD.tailChunks]
    rw [List.zipWith_map_left, List.zipWith_map_right, List.zipWith_self]
    exact hl
  rw [if_pos ⟨hg', hl'⟩]
  generalize hb : Spec.chunkBytes (aShape cfg.dims.tailDims) (cShape cfg.dims.toList) cfg.dims.dtype.bytes
      (framesOfLevel cfg 0 calls.flatten).flatten (g :: l) = b
  have hlen : b.length = prod ((a :: (inner ++ [y, x])).map (·.chunkSize)) * itemSize s.dataType := by
    rw [← hb, ← hD.chunks, ← hD.item]
    simp [Spec.chunkBytes]
  unfold storedForm
  rw [(commit_fields h.commit).2.2.2.1, hcomp]
  simp only [Option.map_some, Env.withBlosc, Blosc.job]
  have hz := hB.tooLarge ⟨codecName q.codec, q.level, q.shuffle⟩ cfg.dims.dtype.bytes b (by rw [hlen]; exact hbig)
  rw [hz]
  simp [resize_zero]

end

namespace Sample

/-- One 65536 x 32768 one-byte frame per chunk: 2 GiB, more than Blosc accepts. -/
def huge : Settings where
  storePath := some "/tmp/a".toList
  customMetadata := none
  s3 := none
  compression := some ⟨1, 1, 1, 1⟩
  dimensions := some [⟨some "t".toList, 2, 0, 1, 1⟩, ⟨some "y".toList, 0, 65536, 65536, 1⟩, ⟨some "x".toList, 0, 32768, 32768, 1⟩]
  multiscale := false
  dataType := 0
  version := 2

def hugeCfg : WConfig where
  dims := ⟨⟨"t", .time, 0, 1, 1⟩, [], ⟨"y", .space, 65536, 65536, 1⟩, ⟨"x", .space, 32768, 32768, 1⟩, .u8⟩
  level := 0
  bucket := none
  storePath := "/tmp/a".toList
  compression := some ⟨"lz4".toList, 1, 1⟩
  version := .v2

theorem hugeSetup : Setup Sample.world 9 huge hugeCfg [hugeCfg] :=
  ⟨rfl, rfl, rfl, rfl, by decide, fun h => by cases h⟩

/-- A library that stores its input behind a 16-byte header, up to the documented size. -/
def copyBlosc : Blosc where
  ret := fun _ _ b => if bloscMaxBuffer < b.length then 0 else b.length + 16
  dest := fun _ _ b => List.replicate 16 1 ++ b

theorem copyBlosc_contract : BloscContract copyBlosc := by
  constructor
  · intro p n b
    show (if bloscMaxBuffer < b.length then (0 : Int) else b.length + 16) ≤ b.length + 16
    split <;> omega
  · intro p n b
    show (List.replicate 16 1 ++ b).length = b.length + 16
    rw [List.length_append, List.length_replicate, Nat.add_comm]
  · intro p n b h
    exact if_pos h

theorem copyBlosc_ok {s : Settings} : StorageOk (Sample.env.withBlosc copyBlosc) s := by
  refine ⟨fun _ => rfl, fun _ => rfl, fun _ _ _ => rfl, fun _ => rfl, ?_⟩
  intro q _ n b
  show (copyBlosc.job _ n b).isSome = true
  unfold Blosc.job
  rw [if_neg]
  · rfl
  · show ¬ (if bloscMaxBuffer < b.length then (0 : Int) else b.length + 16) < 0
    split <;> omega

end Sample

/-- **C55 is violated**: one frame of 2 GiB in one chunk, compressed with lz4. Append and destroy succeed; the chunk file is
empty. -/
theorem huge_chunk_violated (frame : Bytes) (hf : frame.length = 2 ^ 31) : ∃ B, BloscContract B ∧ ∃ st tr,
    runStream Sample.world (Sample.env.withBlosc B) 9 Sample.huge [frame] = some (.ok (st, [2 ^ 31], tr)) ∧ st.error = [] ∧
    fileInStore Sample.world Sample.hugeCfg "/tmp/a/0/0/0/0".toList tr = some [] := by
  refine ⟨Sample.copyBlosc, Sample.copyBlosc_contract, ?_⟩
  obtain ⟨st, tr, h1, h2, h3⟩ := huge_chunks_lost (calls := [[frame]]) (env := Sample.env) Sample.hugeSetup
    Sample.copyBlosc_contract Sample.copyBlosc_ok rfl rfl (a := ⟨some "t".toList, 2, 0, 1, 1⟩) (inner := [])
    (y := ⟨some "y".toList, 0, 65536, 65536, 1⟩) (x := ⟨some "x".toList, 0, 32768, 32768, 1⟩) (by decide) rfl
    (root := "/tmp/a".toList) ⟨rfl, _, rfl, .inr (by decide)⟩ (.inl ⟨_, rfl, by decide⟩) (by show 1 < 2 ^ 32; decide) (by
      intro c hc f hfc
      rw [List.mem_singleton.1 hc] at hfc
      rw [List.mem_singleton.1 hfc, hf]
      decide)
  have e : [[frame]].map List.flatten = [frame] := by simp
  rw [e] at h1
  have e2 : [[frame]].map (fun c => c.flatten.length) = [2 ^ 31] := by simp [hf]
  rw [e2] at h1
  refine ⟨st, tr, h1, h2, ?_⟩
  have := h3 0 [0, 0] (by
    show 0 < ceilDiv 1 (framesPer _ [])
    decide) (by decide)
  exact this

/-- Frames of that size exist (so `huge_chunk_violated` speaks about an actual session), and small chunks are compressed. -/
example : ∃ frame : Bytes, frame.length = 2 ^ 31 := ⟨List.replicate (2 ^ 31) 0, List.length_replicate⟩

example : compressJob (Sample.env.withBlosc Sample.copyBlosc) ⟨"lz4".toList, 1, 1⟩ 1 [5] = (List.replicate 16 1 ++ [5], []) := by
  decide

end AZ
