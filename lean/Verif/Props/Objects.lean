import Verif.Props.Metadata

set_option linter.unusedSimpArgs false

/-!
# C11: the objects of a finished V2 dataset
-/

namespace AZ
open Spec

/-- `q` is the name (relative to the store) of an object a V2 dataset of `levels` levels must contain after
`n` frames: the stream documents; per level that received a frame its array document; and one chunk file per
position of the chunk grid that covers the level's frames. -/
def ExpectedV2 (a : DimProps) (inner : List DimProps) (y x : DimProps) (levels n : Nat) (q : Text) : Prop :=
  (∃ name ∈ streamDocNames 2, q = name.toList) ∨
  ∃ i, i < levels ∧
    ((0 < n / 2 ^ i ∧ q = decimal i ++ "/.zarray".toList) ∨
     ∃ g l, q = decimal i ++ '/' :: chunkKey (g :: l) ∧
      g < ceilDiv (n / 2 ^ i) (levelChunk a.isChannel a.arraySize a.chunkSize i * prod (sizesAt i inner)) ∧
      InBounds (List.zipWith ceilDiv (sizesAt i (inner ++ [y, x])) (chunksAt i (inner ++ [y, x]))) l)

theorem stepFile_none {p : Text} {tr : List Ev} (h : ∀ e ∈ tr, e.path ≠ p) (b : Option Bytes) :
    tr.foldl (stepFile p) b = b := by
  induction tr with
  | nil => rfl
  | cons e es ih =>
    rw [List.foldl_cons, show stepFile p b e = b from if_pos (h e (by simp))]
    exact ih fun e he => h e (by simp [he])

theorem fold_isSome {p : Text} {tr : List Ev} {b : Option Bytes} (h : b.isSome) :
    (tr.foldl (stepFile p) b).isSome := by
  induction tr generalizing b with
  | nil => exact h
  | cons e es ih =>
    rw [List.foldl_cons]
    apply ih
    unfold stepFile
    split
    · exact h
    · split <;> simp [h]

section
variable {w : World} {env : Env} {fuel : Nat} {s : Settings} {cfg : WConfig} {cfgs : List WConfig}
  {a y x : DimProps} {inner : List DimProps} {root : Text} {calls : List (List Bytes)}

/-- **C11.** After a session of whole frames on a filesystem store, the files under the store are exactly the
expected ones. -/
theorem v2_objects_exact (h : Setup w fuel s cfg cfgs) (hz : SizesInRange s) (hE : StorageOk env s)
    (hV : s.version = 2) (hd : s.dimensions = some (a :: (inner ++ [y, x]))) (hl : StoredAt s root)
    (hfr : Fresh w s root) (hn : calls.flatten.length < 2 ^ 32)
    (hf : ∀ c ∈ calls, ∀ f ∈ c, f.length = y.arraySize * x.arraySize * itemSize s.dataType) :
    ∃ st tr, runStream w env fuel s (calls.map List.flatten) =
        some (.ok (st, calls.map (fun c => c.flatten.length), tr)) ∧
      ∀ q, (∃ b, fileInStore w cfg (root ++ '/' :: q) tr = some b) ↔
        ExpectedV2 a inner y x cfgs.length calls.flatten.length q := by
  have hD := dimsOf h.valid h.commit hd
  have hF : bytesOfFrame cfg.dims = cfg.dims.frameBytes := ArrayDims.bytesOfFrame_eq h.dimsValid h.fits
  rw [← hD.frame] at hf
  obtain ⟨st, tr, h1, _, h3⟩ := session_v2 h hE hV hn hf
  refine ⟨st, tr, h1, ?_⟩
  have hloc : LocatedAt s root := .inl hl
  have hver : cfg.version = .v2 := by rw [(commit_fields h.commit).2.2.2.2, if_pos hV]
  have arr : ∀ (i : Nat) (c : WConfig), cfgs[i]? = some c → arrayMetaPath c = root ++ '/' :: (decimal i ++ "/.zarray".toList) := by
    intro i c hc
    have hp := hloc.arrayDoc h hc
    rw [hV] at hp
    exact hp
  have dat : ∀ (i : Nat) (c : WConfig), cfgs[i]? = some c → ∀ g l, objectPath c g l =
      root ++ '/' :: (decimal i ++ '/' :: chunkKey (g :: l)) := by
    intro i c hc g l
    rw [objectPath_key (h.versionV2 hV c (List.mem_of_getElem? hc)), levelDir_eq h hl hc]
    simp [levelDir]
  have chunk : ∀ (i : Nat) (c : WConfig), cfgs[i]? = some c → ∀ g l,
      ((∃ b, fileInStore w cfg (root ++ '/' :: (decimal i ++ '/' :: chunkKey (g :: l))) tr = some b) ↔
        g < ceilDiv (calls.flatten.length / 2 ^ i) (levelChunk a.isChannel a.arraySize a.chunkSize i * prod (sizesAt i inner)) ∧
        InBounds (List.zipWith ceilDiv (sizesAt i (inner ++ [y, x])) (chunksAt i (inner ++ [y, x]))) l) := by
    intro i c hc g l
    have hL := h.levelShape hz hd hc
    have := level_chunk_content h hl hfr h3 hV hc g l
    rw [show levelDir root i ++ chunkKey (g :: l) = root ++ '/' :: (decimal i ++ '/' :: chunkKey (g :: l)) by
      simp [levelDir]] at this
    rw [this, framesOfLevel_length, ← zipWith_ceilDiv, hL.tail, hL.tailChunks]
    unfold groups ArrayDims.framesPerChunk
    rw [hL.append, hL.innerSizes]
    split
    · rename_i hh; exact ⟨fun _ => hh, fun _ => ⟨_, rfl⟩⟩
    · rename_i hh; exact ⟨fun hb => by obtain ⟨b, hb⟩ := hb; simp at hb, fun hb => absurd hb hh⟩
  have meta_ : ∀ (i : Nat) (c : WConfig), cfgs[i]? = some c →
      ((∃ b, fileInStore w cfg (root ++ '/' :: (decimal i ++ "/.zarray".toList)) tr = some b) ↔
        0 < calls.flatten.length / 2 ^ i) := by
    intro i c hc
    obtain ⟨d1, d2⟩ := h.levelDims.1 c (List.mem_of_getElem? hc)
    have ho : Owned c (root ++ '/' :: (decimal i ++ "/.zarray".toList)) := .inl (arr i c hc).symm
    rw [level_file h hfr h3 hc ho, ← arr i c hc, fileAfter_meta_v2 env d1 d2, framesOfLevel_length]
    split
    · rename_i hh
      rw [hh]
      exact ⟨fun hb => by obtain ⟨b, hb⟩ := hb; simp at hb, fun hb => absurd hb (by omega)⟩
    · rename_i hh
      exact ⟨fun _ => Nat.pos_of_ne_zero hh, fun _ => ⟨_, rfl⟩⟩
  intro q
  constructor
  · rintro ⟨b, hb⟩
    have hex : ∃ e ∈ tr, e.path = root ++ '/' :: q := by
      apply Classical.byContradiction
      intro hne
      rw [fileInStore_fresh h.commit hfr, fileAfter, stepFile_none fun e he hp => hne ⟨e, he, hp⟩] at hb
      simp at hb
    obtain ⟨e, he, hep⟩ := hex
    rcases h3.rest e he with ⟨c, hcm, ho⟩ | ⟨key, hk, hkp⟩
    · obtain ⟨i, hi, hic⟩ := List.mem_iff_getElem.1 hcm
      have hc : cfgs[i]? = some c := by rw [List.getElem?_eq_getElem hi, hic]
      right
      refine ⟨i, hi, ?_⟩
      rw [hep] at ho
      rcases ho with ho | ⟨g, l, ho⟩
      · rw [arr i c hc] at ho
        have hq : q = decimal i ++ "/.zarray".toList := by simpa using ho
        exact .inl ⟨(meta_ i c hc).1 ⟨b, by rw [← hq]; exact hb⟩, hq⟩
      · rw [dat i c hc] at ho
        have hq : q = decimal i ++ '/' :: chunkKey (g :: l) := by simpa using ho
        exact .inr ⟨g, l, hq, (chunk i c hc g l).1 ⟨b, by rw [← hq]; exact hb⟩⟩
    · left
      rw [metaKeys_eq h.commit, hV] at hk
      obtain ⟨name, hname, rfl⟩ := List.mem_map.1 hk
      rw [hep, hloc.streamDoc h.commit] at hkp
      exact ⟨name, hname, by simpa using hkp⟩
  · rintro (⟨name, hname, rfl⟩ | ⟨i, hi, ⟨hpos, rfl⟩ | ⟨g, l, rfl, hg⟩⟩)
    · have hk : name.toList ∈ metaKeys cfg.version := by
        rw [metaKeys_eq h.commit, hV]; exact List.mem_map_of_mem hname
      have hd' := session_docs h.commit h.levels (by
        rw [hF]; exact ArrayDims.frameBytes_pos h.dimsValid h.fits) (by rw [hF]; exact hf) h1 hk
      rw [hloc.streamDoc h.commit] at hd'
      rw [fileInStore_fresh h.commit hfr, fileAfter_filter]
      change ∃ b, fileAfter _ (about _ tr) = some b
      rw [hd', ← Option.isSome_iff_exists]
      unfold fileAfter
      rw [List.cons_append, List.foldl_cons]
      apply fold_isSome
      rw [stepFile, if_neg (by simp [Ev.path])]
      rfl
    · have hc : cfgs[i]? = some cfgs[i] := List.getElem?_eq_getElem hi
      exact (meta_ i _ hc).2 hpos
    · have hc : cfgs[i]? = some cfgs[i] := List.getElem?_eq_getElem hi
      exact (chunk i _ hc g l).2 hg

end

/-- The sample dataset with eleven frames contains the chunk file `1/0/1/1/0` of level 1. -/
example : ∃ st ns tr, runStream Sample.world Sample.env 9 Sample.settings (Sample.calls.map List.flatten) =
        some (.ok (st, ns, tr)) ∧
      ∃ b, fileInStore Sample.world Sample.cfg "/tmp/a.zarr/1/0/1/1/0".toList tr = some b := by
  obtain ⟨cfgs, h, hl⟩ := Sample.setup
  obtain ⟨st, tr, h1, h2⟩ := v2_objects_exact (calls := Sample.calls) h Sample.sizesInRange
    Sample.storageOk rfl (a := Sample.dimT) (inner := [Sample.dimC]) (y := Sample.dimY) (x := Sample.dimX) rfl
    Sample.storedAt Sample.fresh (by decide) Sample.calls_sized
  refine ⟨st, _, tr, h1, ?_⟩
  exact (h2 "1/0/1/1/0".toList).2 (.inr ⟨1, by omega, .inr ⟨0, [1, 1, 0], by decide, by decide, by decide⟩⟩)

end AZ
