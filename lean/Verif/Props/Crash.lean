import Verif.Lemmas.CrashV3
import Verif.Props.Objects
import Verif.Props.Failures

set_option linter.unusedSimpArgs false

/-!
# C34, C35: crashes

The process may die at any instant of a session on a filesystem store; `Spec.TornImage` and `Spec.WholeImage` say what
may then be in a file.
-/

namespace AZ
open Spec

theorem filter_prefix_lift {α : Type} {P : α → Bool} {l tr : List α} (h : l <+: tr.filter P) :
    ∃ t, t <+: tr ∧ t.filter P = l := by
  induction tr generalizing l with
  | nil =>
    simp only [List.filter_nil, List.prefix_nil] at h
    exact ⟨[], List.prefix_refl _, by simp [h]⟩
  | cons e es ih =>
    by_cases he : P e = true
    · rw [List.filter_cons_of_pos he] at h
      cases l with
      | nil => exact ⟨[], List.nil_prefix, rfl⟩
      | cons x xs =>
        rw [List.cons_prefix_cons] at h
        obtain ⟨t, t1, t2⟩ := ih h.2
        refine ⟨e :: t, (List.cons_prefix_cons).2 ⟨rfl, t1⟩, ?_⟩
        rw [List.filter_cons_of_pos he, t2, h.1]
    · rw [List.filter_cons_of_neg he] at h
      obtain ⟨t, t1, t2⟩ := ih h
      refine ⟨e :: t, (List.cons_prefix_cons).2 ⟨rfl, t1⟩, ?_⟩
      rw [List.filter_cons_of_neg he, t2]

theorem levelDoc_extent {s : Settings} {ds : List DimProps} {i m m' : Nat} {v : JVal} (h : LevelDoc s ds i m v)
    (h' : LevelDoc s ds i m' v) : m = m' := by
  unfold LevelDoc at h h'
  have key : ∀ {l l' : List Nat}, JVal.nats (m :: l) = JVal.nats (m' :: l') → m = m' := by
    intro l l' e
    simp [JVal.nats] at e
    exact e.1
  by_cases hv : s.version = 2
  · rw [if_pos hv] at h h'
    have := h.shape.symm.trans h'.shape
    exact key (Option.some.inj this)
  · rw [if_neg hv] at h h'
    have := h.shape.symm.trans h'.shape
    exact key (Option.some.inj this)

section
variable {w : World} {env : Env} {fuel : Nat} {s : Settings} {cfg : WConfig} {cfgs : List WConfig}
  {a y x : DimProps} {inner : List DimProps} {root : Text} {calls : List (List Bytes)}
  {st : SState} {ns : List Nat} {tr : List Ev}

/-- **C34, version 2.** The process dies at any instant (after any beginning `tr1` of any schedule `tr'` of the session).
If the array document of a level is then visible with content `b`, it is a document for some extent `m`, and every chunk
file of the array described by it — every position of the chunk grid that covers extent `m` — is completely on disk: it
has only one possible content, which is its content at the end of the session. -/
theorem v2_crash_metadata (h : Setup w fuel s cfg cfgs) (hz : SizesInRange s) (hr : RealCodec s) (hE : StorageOk env s)
    (hV : s.version = 2) (hd : s.dimensions = some (a :: (inner ++ [y, x]))) (hl : StoredAt s root)
    (hfr : Fresh w s root) (hn : calls.flatten.length < 2 ^ 32)
    (hf : ∀ c ∈ calls, ∀ f ∈ c, f.length = y.arraySize * x.arraySize * itemSize s.dataType)
    (hrun : runStream w env fuel s (calls.map List.flatten) = some (.ok (st, ns, tr)))
    {i : Nat} (hi : i < cfgs.length) {tr' tr1 : List Ev} (hso : SameOrder (root ++ '/' :: arrayDocName 2 i) tr tr')
    (h1 : tr1 <+: tr') {b : Bytes} (hb : WholeImage (root ++ '/' :: arrayDocName 2 i) tr1 (some b)) (hne : b ≠ []) :
    ∃ m v, JsonFile b v ∧ LevelDoc s (a :: (inner ++ [y, x])) i m v ∧ m ≤ ceilDiv (calls.flatten.length / 2 ^ i) (prod (sizesAt i inner)) ∧
      ∀ g l, g * levelChunk a.isChannel a.arraySize a.chunkSize i < m →
        InBounds (List.zipWith ceilDiv (sizesAt i (inner ++ [y, x])) (chunksAt i (inner ++ [y, x]))) l →
        ∃ final, fileInStore w cfg (levelDir root i ++ chunkKey (g :: l)) tr = some final ∧
          ∀ c, TornImage (levelDir root i ++ chunkKey (g :: l)) tr1 c → c = some final := by
  have hc : cfgs[i]? = some cfgs[i] := List.getElem?_eq_getElem hi
  generalize cfgs[i] = c at hc
  have hD := dimsOf h.valid h.commit hd
  have hL := h.levelShape hz hd hc
  rw [← hD.frame] at hf
  obtain ⟨st', trx, h1', _, h3⟩ := session_v2 h hE hV hn hf
  rw [hrun] at h1'
  simp only [Option.some.injEq, Res.ok.injEq, Prod.mk.injEq] at h1'
  obtain ⟨_, _, rfl⟩ := h1'
  have hev := session_events_v2 h hE hV hn hf hrun hc
  have hlen := framesOfLevel_length cfg i calls.flatten
  obtain ⟨d1, d2⟩ := h.levelDims.1 c (List.mem_of_getElem? hc)
  have hp := (show LocatedAt s root from .inl hl).arrayDoc h hc
  rw [hV] at hp
  rw [← hp] at hso hb
  -- a prefix of the array run for each file
  have lift : ∀ p, Owned c p → ∃ t, t <+: runEventsV2 env c (framesOfLevel cfg i calls.flatten).flatten
      (framesOfLevel cfg i calls.flatten).length ∧ disk p t = disk p tr1 ∧
      about (arrayMetaPath c) t = about (arrayMetaPath c) tr1 := by
    intro p hpo
    have e1 : tr1.filter (fun e => decide (e.path = p ∨ e.path = arrayMetaPath c)) <+:
        (runEventsV2 env c (framesOfLevel cfg i calls.flatten).flatten
          (framesOfLevel cfg i calls.flatten).length).filter (fun e => decide (e.path = p ∨ e.path = arrayMetaPath c)) := by
      have := h1.filter (fun e => decide (e.path = p ∨ e.path = arrayMetaPath c))
      rw [hso p] at this
      rw [← hev]
      unfold within
      rw [List.filter_filter]
      convert this using 2
      funext e
      by_cases he : e.path = p ∨ e.path = arrayMetaPath c
      · have : ownedBy c e.path = true := by
          rw [ownedBy_iff]
          rcases he with he | he
          · rw [he]; exact hpo
          · exact .inl he
        rw [this, Bool.and_true]
      · simp [he]
    obtain ⟨t, t1, t2⟩ := filter_prefix_lift e1
    refine ⟨t, t1, ?_, ?_⟩
    · rw [disk_within p (fun q => decide (q = p ∨ q = arrayMetaPath c)) (by simp) t,
        disk_within p (fun q => decide (q = p ∨ q = arrayMetaPath c)) (by simp) tr1]
      exact congrArg _ t2
    · have := congrArg (fun l => l.filter fun e => decide (e.path = arrayMetaPath c)) t2
      rw [List.filter_filter, List.filter_filter] at this
      convert this using 2 <;>
      · funext e
        by_cases he : e.path = arrayMetaPath c <;> simp [he]
  -- the visible document has been written
  obtain ⟨t0, t1, t2, t3⟩ := lift (arrayMetaPath c) (.inl rfl)
  have hin : InPlace (arrayMetaPath c) (about (arrayMetaPath c) tr1) := by
    rw [← t3]
    have hstf := runArray_v2 (hE.good h (List.mem_of_getElem? hc)) (h.versionV2 hV c (List.mem_of_getElem? hc)) d1 d2
      (framesOfLevel cfg i calls.flatten) (by
        rw [hlen]; exact Nat.lt_of_le_of_lt (Nat.div_le_self _ _) hn) (h3.sizes i c hc)
    obtain ⟨stf, r1, _, r2⟩ := hstf
    obtain ⟨ks, k1, k2, k3⟩ := runArray_meta d1 d2 (by
      rw [hlen]; exact Nat.lt_of_le_of_lt (Nat.div_le_self _ _) hn) r1
    rw [r2] at k3
    refine InPlace.prefix ?_ (t1.filter fun e => decide (e.path = arrayMetaPath c))
    rcases k3 with k3 | k3
    · exact .inl k3
    · refine .inr ⟨ks.map (docFor c), ?_, .inr ?_⟩
      · rw [List.pairwise_map]
        exact k1.imp fun hab => metaDoc_length_mono c (ceilDiv_mono hab)
      · rw [List.map_map]; exact k3
  have hw1 : Ev.wrote (arrayMetaPath c) 0 b ∈ about (arrayMetaPath c) tr1 := by
    refine inPlace_image hin ?_ hne
    unfold WholeImage at hb ⊢
    rw [← disk_about]
    exact hb
  have hwt : ∀ t, about (arrayMetaPath c) t = about (arrayMetaPath c) tr1 → Ev.wrote (arrayMetaPath c) 0 b ∈ t := by
    intro t ht
    rw [← ht] at hw1
    exact (List.mem_filter.1 hw1).1
  have hin0 : 0 < prod (aShape c.dims.inner) := prodA_pos (ArrayDims.innerOk d1 d2)
  have ext : ∀ g, ceilDiv (framesAt c (framesOfLevel cfg i calls.flatten).length g) (prod (aShape c.dims.inner)) ≤
      (g + 1) * c.dims.append.chunkSize := by
    intro g
    rw [ceilDiv_least hin0, Nat.mul_assoc]
    exact Nat.min_le_left _ _
  obtain ⟨g0, g1, g2, _⟩ := v2_array_crash env d1 d2 _ t1 (hwt t0 t3)
  obtain ⟨v, v1, v2⟩ := level_doc h hz hr hd hc (ceilDiv (framesAt c (framesOfLevel cfg i calls.flatten).length g0)
    (prod (aShape c.dims.inner)))
  rw [← g2] at v1
  refine ⟨_, v, v1, v2, ?_, ?_⟩
  · rw [← hL.innerSizes, ← hlen]
    exact ceilDiv_mono (Nat.min_le_right _ _)
  · intro g l hg hlb
    have hlb' : InBounds (nShape c.dims.tailDims) l := by
      rw [← zipWith_ceilDiv, hL.tail, hL.tailChunks]; exact hlb
    have hop : levelDir root i ++ chunkKey (g :: l) = chunkPath c g (ravel (nShape c.dims.tailDims) l) := by
      rw [← levelDir_eq h hl hc, ← objectPath_key (h.versionV2 hV c (List.mem_of_getElem? hc))]
      unfold chunkPath
      rw [unravel_ravel hlb']
    have hcnt : ravel (nShape c.dims.tailDims) l < c.dims.chunkCount := ravel_lt hlb'
    obtain ⟨t, u1, u2, u3⟩ := lift (chunkPath c g (ravel (nShape c.dims.tailDims) l)) (.inr ⟨_, _, rfl⟩)
    obtain ⟨g', w1, w2, w3⟩ := v2_array_crash env d1 d2 _ u1 (hwt t u3)
    have hm := levelDoc_extent v2 (by
      obtain ⟨v', v1', v2'⟩ := level_doc h hz hr hd hc (ceilDiv (framesAt c (framesOfLevel cfg i calls.flatten).length g')
        (prod (aShape c.dims.inner)))
      rw [← w2] at v1'
      rw [jsonFile_unique v1 v1']
      exact v2')
    have hgg : g ≤ g' := by
      have e1 := ext g'
      rw [← hm] at e1
      rw [← hL.append] at hg
      have := Nat.lt_of_lt_of_le hg e1
      have := Nat.lt_of_mul_lt_mul_right this
      omega
    have hclosed := w3 g _ hgg hcnt
    rw [u2] at hclosed
    refine ⟨chunkFinal env c (framesOfLevel cfg i calls.flatten).flatten g (ravel (nShape c.dims.tailDims) l), ?_, ?_⟩
    · rw [level_chunk_content h hl hfr h3 hV hc g l, if_pos ⟨by omega, hlb'⟩]
      unfold chunkFinal
      rw [unravel_ravel hlb']
    · intro img himg
      rw [hop] at himg
      exact tornImage_closed hclosed himg

theorem filter_events_chunk (env : Env) {c : WConfig} (S : Bytes) {k g j : Nat} (hg : g < k) (hj : j < c.dims.chunkCount) :
    about (chunkPath c g j) (eventsV2 env c S k) = [.opened (chunkPath c g j),
      .wrote (chunkPath c g j) 0 (chunkFinal env c S g j), .finalized (chunkPath c g j)] := by
  unfold about eventsV2
  rw [filter_flatMap_unique (g0 := g) ?_ hg]
  · rw [List.filter_append, filter_data_same env S hj]
    unfold chunkPath
    rw [filter_meta_chunk, List.append_nil]
    rfl
  · intro g' _ hne
    rw [List.filter_append, filter_data_none]
    · unfold chunkPath
      rw [filter_meta_chunk]; rfl
    · intro c' hc' he
      exact hne (chunkPath_inj hc' hj he).1

theorem about_owned {c : WConfig} {p : Text} (hp : Owned c p) (tr : List Ev) :
    about p (within (ownedBy c) tr) = about p tr := by
  unfold about within
  rw [List.filter_filter]
  congr 1
  funext e
  by_cases he : e.path = p
  · simp [he, ownedBy_iff.2 hp]
  · simp [he]

/-- **C35, version 2.** After the calls `calls1` returned, let `g` be a chunk group of a level that they completed. In any
continuation of the session no later event concerns the chunk files of the group, and if the process dies at any later
instant (in any schedule of the worker threads) each of them has only one possible content, its content at the end of
the session. -/
theorem v2_completed_chunks (h : Setup w fuel s cfg cfgs) (hz : SizesInRange s) (hE : StorageOk env s)
    (hV : s.version = 2) (hd : s.dimensions = some (a :: (inner ++ [y, x]))) (hl : StoredAt s root)
    (hfr : Fresh w s root) {calls1 calls2 : List (List Bytes)} (hn : (calls1 ++ calls2).flatten.length < 2 ^ 32)
    (hf : ∀ c ∈ calls1 ++ calls2, ∀ f ∈ c, f.length = y.arraySize * x.arraySize * itemSize s.dataType)
    {st0 st1 : SState} {ns1 : List Nat} (h0 : createStream w env fuel (some s) = some (.ok st0))
    (h1 : appends env (calls1.map List.flatten) st0 = .ok (st1, ns1))
    (hrun : runStream w env fuel s ((calls1 ++ calls2).map List.flatten) = some (.ok (st, ns, tr))) :
    st1.trace <+: tr ∧ ∀ i g l, i < cfgs.length →
      (g + 1) * (levelChunk a.isChannel a.arraySize a.chunkSize i * prod (sizesAt i inner)) ≤ calls1.flatten.length / 2 ^ i →
      InBounds (List.zipWith ceilDiv (sizesAt i (inner ++ [y, x])) (chunksAt i (inner ++ [y, x]))) l →
      (∀ e ∈ tr.drop st1.trace.length, e.path ≠ levelDir root i ++ chunkKey (g :: l)) ∧
      ∃ final, fileInStore w cfg (levelDir root i ++ chunkKey (g :: l)) tr = some final ∧
        ∀ t1 tr1 tr', (∀ p, about p t1 = about p st1.trace) → (∀ p, about p tr' = about p tr) → t1 <+: tr1 → tr1 <+: tr' →
          ∀ c, TornImage (levelDir root i ++ chunkKey (g :: l)) tr1 c → c = some final := by
  have hD := dimsOf h.valid h.commit hd
  rw [← hD.frame] at hf
  obtain ⟨st', trx, h1', _, h3⟩ := session_v2 h hE hV hn hf
  rw [hrun] at h1'
  simp only [Option.some.injEq, Res.ok.injEq, Prod.mk.injEq] at h1'
  obtain ⟨_, _, rfl⟩ := h1'
  have hF := ArrayDims.bytesOfFrame_eq h.dimsValid h.fits
  have hF0 : 0 < bytesOfFrame cfg.dims := by rw [hF]; exact ArrayDims.frameBytes_pos h.dimsValid h.fits
  have hn1 : calls1.flatten.length < 2 ^ 32 := by
    rw [List.flatten_append, List.length_append] at hn; omega
  have hf1 : ∀ c ∈ calls1, ∀ f ∈ c, f.length = cfg.dims.frameBytes := fun c hc => hf c (by simp [hc])
  have hf2 : ∀ c ∈ calls2, ∀ f ∈ c, f.length = cfg.dims.frameBytes := fun c hc => hf c (by simp [hc])
  have hpre : st1.trace <+: tr := reached_prefix h hf1 hf2 h0 h1 hrun
  refine ⟨hpre, ?_⟩
  intro i g l hi hg hlb
  have hc : cfgs[i]? = some cfgs[i] := List.getElem?_eq_getElem hi
  generalize cfgs[i] = c at hc
  have hL := h.levelShape hz hd hc
  obtain ⟨d1, d2⟩ := h.levelDims.1 c (List.mem_of_getElem? hc)
  have hlb' : InBounds (nShape c.dims.tailDims) l := by
    rw [← zipWith_ceilDiv, hL.tail, hL.tailChunks]; exact hlb
  have hop : levelDir root i ++ chunkKey (g :: l) = chunkPath c g (ravel (nShape c.dims.tailDims) l) := by
    rw [← levelDir_eq h hl hc, ← objectPath_key (h.versionV2 hV c (List.mem_of_getElem? hc))]
    unfold chunkPath
    rw [unravel_ravel hlb']
  have hcnt : ravel (nShape c.dims.tailDims) l < c.dims.chunkCount := ravel_lt hlb'
  have hown : Owned c (levelDir root i ++ chunkKey (g :: l)) := by rw [hop]; exact .inr ⟨_, _, rfl⟩
  have hfpc : c.dims.framesPerChunk = levelChunk a.isChannel a.arraySize a.chunkSize i * prod (sizesAt i inner) := by
    unfold ArrayDims.framesPerChunk
    rw [hL.append, hL.innerSizes]
  have hpos := ArrayDims.framesPerChunk_pos d1 d2
  rw [← hfpc] at hg
  have hle : calls1.flatten.length / 2 ^ i ≤ (calls1 ++ calls2).flatten.length / 2 ^ i := by
    apply Nat.div_le_div_right
    rw [List.flatten_append, List.length_append]; omega
  have hgrp : g < groups c (framesOfLevel cfg i (calls1 ++ calls2).flatten).length := by
    unfold groups
    rw [framesOfLevel_length]
    rcases Nat.lt_or_ge g (ceilDiv ((calls1 ++ calls2).flatten.length / 2 ^ i) c.dims.framesPerChunk) with hlt | hge
    · exact hlt
    · exfalso
      rw [ge_iff_le, ceilDiv_least hpos] at hge
      have : (g + 1) * c.dims.framesPerChunk = g * c.dims.framesPerChunk + c.dims.framesPerChunk := Nat.succ_mul _ _
      omega
  have hev := session_events_v2 h hE hV hn hf hrun hc
  have hev1 := reached_events_v2 h hE hV hn1 hf1 h0 h1 hc
  have ha1 : about (levelDir root i ++ chunkKey (g :: l)) st1.trace = about (levelDir root i ++ chunkKey (g :: l))
      (eventsV2 env c (framesOfLevel cfg i calls1.flatten).flatten
        ((framesOfLevel cfg i calls1.flatten).length / c.dims.framesPerChunk)) := by
    rw [← about_owned hown, hev1, about_owned hown]
  have ha2 : about (levelDir root i ++ chunkKey (g :: l)) tr = about (levelDir root i ++ chunkKey (g :: l))
      (runEventsV2 env c (framesOfLevel cfg i (calls1 ++ calls2).flatten).flatten
        (framesOfLevel cfg i (calls1 ++ calls2).flatten).length) := by rw [← about_owned hown, hev]
  rw [hop] at ha1 ha2 ⊢
  rw [filter_events_chunk env _ (by
    rw [framesOfLevel_length, Nat.lt_iff_add_one_le, Nat.le_div_iff_mul_le hpos]; exact hg) hcnt] at ha1
  have ha3 := ha2.trans (filter_run_chunk env d1 d2 _ hgrp hcnt)
  have heq : about (chunkPath c g (ravel (nShape c.dims.tailDims) l)) st1.trace =
      about (chunkPath c g (ravel (nShape c.dims.tailDims) l)) tr :=
    (hpre.filter _).eq_of_length (by
      show (about _ _).length = (about _ _).length
      rw [ha1, ha3]; rfl)
  constructor
  · intro e he hep
    have : about (chunkPath c g (ravel (nShape c.dims.tailDims) l)) tr =
        about (chunkPath c g (ravel (nShape c.dims.tailDims) l)) st1.trace ++
        about (chunkPath c g (ravel (nShape c.dims.tailDims) l)) (tr.drop st1.trace.length) := by
      obtain ⟨r, rfl⟩ := hpre
      unfold about
      rw [List.filter_append, List.drop_left]
    rw [heq] at this
    have hnil := List.self_eq_append_right.1 this
    have hm : e ∈ about (chunkPath c g (ravel (nShape c.dims.tailDims) l)) (tr.drop st1.trace.length) :=
      List.mem_filter.2 ⟨he, by simpa using hep⟩
    rw [hnil] at hm
    simp at hm
  · refine ⟨chunkFinal env c (framesOfLevel cfg i (calls1 ++ calls2).flatten).flatten g (ravel (nShape c.dims.tailDims) l), ?_, ?_⟩
    · rw [← hop, level_chunk_content h hl hfr h3 hV hc g l, if_pos ⟨hgrp, hlb'⟩]
      unfold chunkFinal
      rw [unravel_ravel hlb']
    · intro t1 tr1 tr' p1 p2 p3 p4 img himg
      refine tornImage_closed (disk_closed ?_) himg
      refine (prefix_sandwich (p3.filter _) (p4.filter _) ?_).trans ((p2 _).trans ha3)
      exact (p1 _).trans (heq.trans (p2 _).symm)

/-! ### Version 3 -/

theorem zipWith_shards (ds : List Dim) : List.zipWith ceilDiv (nShape ds) (kShape ds) = mShape ds := by
  induction ds with
  | nil => rfl
  | cons d ds ih => simp only [nShape, kShape, mShape, List.map_cons, List.zipWith_cons_cons] at ih ⊢; rw [ih]

theorem LevelShape.shardSplit {c : WConfig} {i : Nat} (hL : LevelShape s c a y x inner i) :
    c.dims.append.shardSize = levelShard a.isChannel a.arraySize a.chunkSize a.shardSize i ∧
    kShape c.dims.tailDims = shardsAt i (inner ++ [y, x]) := by
  have := hL.shards
  rw [show c.dims.toList = c.dims.append :: c.dims.tailDims from rfl] at this
  exact List.cons.inj this

/-- Number of shards along the dimensions other than the append dimension. -/
def shardGridAt (i : Nat) (ds : List DimProps) : List Nat :=
  List.zipWith ceilDiv (List.zipWith ceilDiv (sizesAt i ds) (chunksAt i ds)) (shardsAt i ds)

theorem LevelShape.shardGrid {c : WConfig} {i : Nat} (hL : LevelShape s c a y x inner i) :
    mShape c.dims.tailDims = shardGridAt i (inner ++ [y, x]) := by
  rw [← zipWith_shards, ← zipWith_ceilDiv, hL.tail, hL.tailChunks, hL.shardSplit.2]
  rfl

theorem runStream_parts {calls : List Bytes} (h : runStream w env fuel s calls = some (.ok (st, ns, tr))) :
    ∃ st0, createStream w env fuel (some s) = some (.ok st0) ∧ appends env calls st0 = .ok (st, ns) := by
  unfold runStream at h
  split at h
  · simp at h
  · simp at h
  · simp at h
  · rename_i st0 h0
    simp only [Option.some.injEq] at h
    obtain ⟨⟨s2, n2⟩, k1, k2⟩ := Res.bind_eq_ok.1 h
    dsimp only at k2
    obtain ⟨tr2, k3, k4⟩ := Res.bind_eq_ok.1 k2
    simp only [Res.pure_eq, Res.ok.injEq, Prod.mk.injEq] at k4
    obtain ⟨rfl, rfl, rfl⟩ := k4
    exact ⟨st0, h0, k1⟩

theorem reached_events_v3 (h : Setup w fuel s cfg cfgs) (hF3 : cfg.dims.FitsV3) (hE : StorageOk env s) (ho : SmallOverhead env)
    (hV : s.version = 3) (hn : calls.flatten.length < 2 ^ 32) (hf : ∀ c ∈ calls, ∀ f ∈ c, f.length = cfg.dims.frameBytes)
    {st0 : SState} (h0 : createStream w env fuel (some s) = some (.ok st0))
    (hrun : appends env (calls.map List.flatten) st0 = .ok (st, ns))
    {i : Nat} {c : WConfig} (hc : cfgs[i]? = some c) {P : Text → Bool} (hP : OwnedAll c P) :
    within P st.trace = within P (eventsV3 env c (framesOfLevel cfg i calls.flatten).flatten
      ((framesOfLevel cfg i calls.flatten).length / c.dims.framesPerChunk)) := by
  obtain ⟨ws, w1, w2⟩ := reached_level h hf h0 hrun hc
  have hff : ∀ f ∈ calls.flatten, f.length = cfg.dims.frameBytes := by
    intro f hfm
    obtain ⟨c, hcm, hfc⟩ := List.mem_flatten.1 hfm
    exact hf c hcm f hfc
  obtain ⟨d1, d2⟩ := h.levelDims.1 c (List.mem_of_getElem? hc)
  have d3 := h.levelFitsV3 hF3 c (List.mem_of_getElem? hc)
  have hv := h.versionV3 hV c (List.mem_of_getElem? hc)
  obtain ⟨stw, k1, k2⟩ := writeFrames_inv3 (hE.good h (List.mem_of_getElem? hc)) ho hv d1 d2 d3
    (framesOfLevel cfg i calls.flatten) (n := 0) (by
      rw [Nat.zero_add, framesOfLevel_length]; exact Nat.lt_of_le_of_lt (Nat.div_le_self _ _) hn) (framesOfLevel_sizes h hff hc)
      (inv3_init hv d1 d2 d3)
  rw [w1] at k1
  cases k1
  have htr := k2.tr
  rw [List.nil_append, Nat.zero_add] at htr
  rw [w2 _ hP, htr]

/-- A shard of a level, spelled by its name and by its number. -/
theorem shard_name (h : Setup w fuel s cfg cfgs) (hz : SizesInRange s) (hV : s.version = 3)
    (hd : s.dimensions = some (a :: (inner ++ [y, x]))) (hl : StoredAt s root) {i : Nat} {c : WConfig} (hc : cfgs[i]? = some c)
    {G : Nat} {l : List Nat} (hlb : InBounds (shardGridAt i (inner ++ [y, x])) l) :
    levelDirV3 root i ++ chunkKey (G :: l) = shardPath c G (ravel (mShape c.dims.tailDims) l) ∧
      ravel (mShape c.dims.tailDims) l < c.dims.shardCount := by
  have hL := h.levelShape hz hd hc
  rw [← hL.shardGrid] at hlb
  refine ⟨?_, ravel_lt hlb⟩
  rw [← levelDirV3_eq h hl hc, ← objectPath_keyV3 (h.versionV3 hV c (List.mem_of_getElem? hc))]
  unfold shardPath
  rw [unravel_ravel hlb]

/-- A closed shard at any later instant. -/
theorem v3_shard_safe (h : Setup w fuel s cfg cfgs) (hF3 : cfg.dims.FitsV3) (hz : SizesInRange s) (hE : StorageOk env s)
    (ho : SmallOverhead env) (hV : s.version = 3) (hd : s.dimensions = some (a :: (inner ++ [y, x]))) (hl : StoredAt s root)
    (hfr : Fresh w s root) (hn : calls.flatten.length < 2 ^ 32) (hf : ∀ c ∈ calls, ∀ f ∈ c, f.length = cfg.dims.frameBytes)
    (hrun : runStream w env fuel s (calls.map List.flatten) = some (.ok (st, ns, tr)))
    {i : Nat} {c : WConfig} (hc : cfgs[i]? = some c) {G : Nat} {l : List Nat} (hlb : InBounds (shardGridAt i (inner ++ [y, x])) l)
    (hG : (G + 1) * c.dims.append.shardSize ≤ calls.flatten.length / 2 ^ i / c.dims.framesPerChunk) {t : List Ev}
    (h1 : about (levelDirV3 root i ++ chunkKey (G :: l)) t <+: about (levelDirV3 root i ++ chunkKey (G :: l)) tr)
    (h2 : Ev.finalized (levelDirV3 root i ++ chunkKey (G :: l)) ∈ t) :
    about (levelDirV3 root i ++ chunkKey (G :: l)) t = about (levelDirV3 root i ++ chunkKey (G :: l)) tr ∧
    ∃ final, fileInStore w cfg (levelDirV3 root i ++ chunkKey (G :: l)) tr = some final ∧
      ∀ c, TornImage (levelDirV3 root i ++ chunkKey (G :: l)) t c → c = some final := by
  obtain ⟨st', trx, h1', _, h3⟩ := session_v3 h hF3 hE ho hV hn hf
  rw [hrun] at h1'
  simp only [Option.some.injEq, Res.ok.injEq, Prod.mk.injEq] at h1'
  obtain ⟨_, _, rfl⟩ := h1'
  have d3 := h.levelFitsV3 hF3 c (List.mem_of_getElem? hc)
  obtain ⟨d1, d2⟩ := h.levelDims.1 c (List.mem_of_getElem? hc)
  have hk : 0 < c.dims.append.shardSize := d3.pos c.dims.append (by simp [ArrayDims.toList])
  obtain ⟨hp, hi⟩ := shard_name h hz hV hd hl hc (G := G) hlb
  have hown : Owned c (levelDirV3 root i ++ chunkKey (G :: l)) := by rw [hp]; exact .inr ⟨_, _, rfl⟩
  have hab := h3.level i c hc _ hown
  have hfile := level_shard h hl hfr h3 hV hc G l
  rw [hp] at h1 h2 hab hfile ⊢
  rw [hab] at h1
  obtain ⟨e1, e2⟩ := shard_image (env := env) hk hi (by rw [framesOfLevel_length]; exact hG) h1 h2
  refine ⟨e1.trans hab.symm, ?_⟩
  rw [hfile]
  have hpos := ArrayDims.framesPerChunk_pos d1 d2
  have hgr : (G + 1) * c.dims.append.shardSize ≤ groups c (framesOfLevel cfg i calls.flatten).length := by
    unfold groups
    rw [framesOfLevel_length]
    refine hG.trans ?_
    unfold ceilDiv
    exact Nat.div_le_div_right (by omega)
  have hex := fileAfter_shard (env := env) d1 d2 d3 (framesOfLevel cfg i calls.flatten).flatten
    (n := (framesOfLevel cfg i calls.flatten).length) hi (G := G)
  rw [if_neg (by rw [Nat.succ_mul] at hgr; omega)] at hex
  rw [hex] at e2 ⊢
  exact ⟨_, rfl, e2⟩

/-- **C34, version 3, while appending.** The process dies at any instant before destroy writes (after any beginning
`tr1` of any schedule of the events up to the return of the last append). Same conclusion as `v2_crash_metadata` with
shards in place of chunks. Missing for the full claim: the instants inside destroy, for which it is violated
(`v3_destroy_crash_violated`). -/
theorem v3_crash_metadata_partial (h : Setup w fuel s cfg cfgs) (hF3 : cfg.dims.FitsV3) (hz : SizesInRange s) (hr : RealCodec s)
    (hE : StorageOk env s) (ho : SmallOverhead env)
    (hV : s.version = 3) (hd : s.dimensions = some (a :: (inner ++ [y, x]))) (hl : StoredAt s root)
    (hfr : Fresh w s root) (hn : calls.flatten.length < 2 ^ 32)
    (hf : ∀ c ∈ calls, ∀ f ∈ c, f.length = y.arraySize * x.arraySize * itemSize s.dataType)
    (hrun : runStream w env fuel s (calls.map List.flatten) = some (.ok (st, ns, tr)))
    {i : Nat} (hi : i < cfgs.length) {tr' tr1 : List Ev} (hso : SameOrder (root ++ '/' :: arrayDocName 3 i) st.trace tr')
    (h1 : tr1 <+: tr') {b : Bytes} (hb : WholeImage (root ++ '/' :: arrayDocName 3 i) tr1 (some b)) (hne : b ≠ []) :
    ∃ m v, JsonFile b v ∧ LevelDoc s (a :: (inner ++ [y, x])) i m v ∧ m ≤ ceilDiv (calls.flatten.length / 2 ^ i) (prod (sizesAt i inner)) ∧
      ∀ g l, g * (levelChunk a.isChannel a.arraySize a.chunkSize i * levelShard a.isChannel a.arraySize a.chunkSize a.shardSize i) < m →
        InBounds (shardGridAt i (inner ++ [y, x])) l →
        ∃ final, fileInStore w cfg (levelDirV3 root i ++ chunkKey (g :: l)) tr = some final ∧
          ∀ c, TornImage (levelDirV3 root i ++ chunkKey (g :: l)) tr1 c → c = some final := by
  have hc : cfgs[i]? = some cfgs[i] := List.getElem?_eq_getElem hi
  generalize cfgs[i] = c at hc
  have hD := dimsOf h.valid h.commit hd
  have hL := h.levelShape hz hd hc
  rw [← hD.frame] at hf
  have hlen := framesOfLevel_length cfg i calls.flatten
  obtain ⟨d1, d2⟩ := h.levelDims.1 c (List.mem_of_getElem? hc)
  have d3 := h.levelFitsV3 hF3 c (List.mem_of_getElem? hc)
  have hk : 0 < c.dims.append.shardSize := d3.pos c.dims.append (by simp [ArrayDims.toList])
  have hff : ∀ f ∈ calls.flatten, f.length = cfg.dims.frameBytes := by
    intro f hfm
    obtain ⟨c, hcm, hfc⟩ := List.mem_flatten.1 hfm
    exact hf c hcm f hfc
  obtain ⟨st0, p0, p1⟩ := runStream_parts hrun
  have hev := fun P hP => reached_events_v3 (P := P) h hF3 hE ho hV hn hf p0 p1 hc hP
  have hpre : st.trace <+: tr := reached_prefix (calls2 := []) h hf (by simp) p0 p1 (by rw [List.append_nil]; exact hrun)
  have hp := (show LocatedAt s root from .inl hl).arrayDoc h hc
  rw [hV] at hp
  rw [← hp] at hso hb
  have lift : ∀ p, Owned c p → ∃ t, t <+: eventsV3 env c (framesOfLevel cfg i calls.flatten).flatten
      ((framesOfLevel cfg i calls.flatten).length / c.dims.framesPerChunk) ∧ about p t = about p tr1 ∧
      about (arrayMetaPath c) t = about (arrayMetaPath c) tr1 := by
    intro p hpo
    have hPo : OwnedAll c (fun q => decide (q = p ∨ q = arrayMetaPath c)) := by
      intro q hq
      rcases of_decide_eq_true hq with rfl | rfl
      · exact hpo
      · exact .inl rfl
    have e1 : tr1.filter (fun e => decide (e.path = p ∨ e.path = arrayMetaPath c)) <+:
        (eventsV3 env c (framesOfLevel cfg i calls.flatten).flatten
          ((framesOfLevel cfg i calls.flatten).length / c.dims.framesPerChunk)).filter
          (fun e => decide (e.path = p ∨ e.path = arrayMetaPath c)) := by
      have := h1.filter (fun e => decide (e.path = p ∨ e.path = arrayMetaPath c))
      rw [hso p] at this
      have e := hev _ hPo
      unfold within at e
      rw [e] at this
      exact this
    obtain ⟨t, t1, t2⟩ := filter_prefix_lift e1
    refine ⟨t, t1, ?_, ?_⟩
    · have := congrArg (fun l => l.filter fun e => decide (e.path = p)) t2
      rw [List.filter_filter, List.filter_filter] at this
      convert this using 2 <;>
      · funext e
        by_cases he : e.path = p <;> simp [he]
    · have := congrArg (fun l => l.filter fun e => decide (e.path = arrayMetaPath c)) t2
      rw [List.filter_filter, List.filter_filter] at this
      convert this using 2 <;>
      · funext e
        by_cases he : e.path = arrayMetaPath c <;> simp [he]
  obtain ⟨t0, t1, t2, t3⟩ := lift (arrayMetaPath c) (.inl rfl)
  have hin : InPlace (arrayMetaPath c) (about (arrayMetaPath c) tr1) := by
    rw [← t3]
    obtain ⟨stf, r1, _, r2⟩ := runArray_v3 (hE.good h (List.mem_of_getElem? hc)) ho (h.versionV3 hV c (List.mem_of_getElem? hc)) d1 d2 d3
      (framesOfLevel cfg i calls.flatten) (by
        rw [hlen]; exact Nat.lt_of_le_of_lt (Nat.div_le_self _ _) hn) (framesOfLevel_sizes h hff hc)
    obtain ⟨ks, k1, k2, k3⟩ := runArray_meta d1 d2 (by
      rw [hlen]; exact Nat.lt_of_le_of_lt (Nat.div_le_self _ _) hn) r1
    rw [r2] at k3
    refine InPlace.prefix ?_ ((t1.trans (List.prefix_append _ (finishEventsV3 env c (framesOfLevel cfg i calls.flatten).flatten
      (framesOfLevel cfg i calls.flatten).length))).filter
      fun e => decide (e.path = arrayMetaPath c))
    rcases k3 with k3 | k3
    · exact .inl k3
    · refine .inr ⟨ks.map (docFor c), ?_, .inr ?_⟩
      · rw [List.pairwise_map]
        exact k1.imp fun hab => metaDoc_length_mono c (ceilDiv_mono hab)
      · rw [List.map_map]; exact k3
  have hw1 : Ev.wrote (arrayMetaPath c) 0 b ∈ about (arrayMetaPath c) tr1 := by
    refine inPlace_image hin ?_ hne
    unfold WholeImage at hb ⊢
    rw [← disk_about]
    exact hb
  have hwt : ∀ t, about (arrayMetaPath c) t = about (arrayMetaPath c) tr1 → Ev.wrote (arrayMetaPath c) 0 b ∈ t := by
    intro t ht
    rw [← ht] at hw1
    exact (List.mem_filter.1 hw1).1
  have hin0 : 0 < prod (aShape c.dims.inner) := prodA_pos (ArrayDims.innerOk d1 d2)
  have hpos := ArrayDims.framesPerChunk_pos d1 d2
  have ext : ∀ G, ceilDiv ((G + 1) * c.dims.append.shardSize * c.dims.framesPerChunk) (prod (aShape c.dims.inner)) ≤
      (G + 1) * (c.dims.append.chunkSize * c.dims.append.shardSize) := by
    intro G
    rw [ceilDiv_least hin0]
    unfold ArrayDims.framesPerChunk
    apply Nat.le_of_eq
    ac_rfl
  obtain ⟨G0, g1, g2, _⟩ := v3_array_crash hk t1 (hwt t0 t3)
  obtain ⟨v, v1, v2⟩ := level_doc h hz hr hd hc (ceilDiv ((G0 + 1) * c.dims.append.shardSize * c.dims.framesPerChunk)
    (prod (aShape c.dims.inner)))
  rw [← g2] at v1
  refine ⟨_, v, v1, v2, ?_, ?_⟩
  · rw [← hL.innerSizes, ← hlen]
    apply ceilDiv_mono
    exact (Nat.le_div_iff_mul_le hpos).1 g1
  · intro g l hg hlb
    obtain ⟨hop, hcnt⟩ := shard_name h hz hV hd hl hc (G := g) hlb
    have hown : Owned c (levelDirV3 root i ++ chunkKey (g :: l)) := by rw [hop]; exact .inr ⟨_, _, rfl⟩
    obtain ⟨t, u1, u2, u3⟩ := lift _ hown
    obtain ⟨G', w1, w2, w3⟩ := v3_array_crash hk u1 (hwt t u3)
    have hm := levelDoc_extent v2 (by
      obtain ⟨v', v1', v2'⟩ := level_doc h hz hr hd hc (ceilDiv ((G' + 1) * c.dims.append.shardSize * c.dims.framesPerChunk)
        (prod (aShape c.dims.inner)))
      rw [← w2] at v1'
      rw [jsonFile_unique v1 v1']
      exact v2')
    have hgg : g ≤ G' := by
      have e1 := ext G'
      rw [← hm] at e1
      rw [← hL.append, ← hL.shardSplit.1] at hg
      have := Nat.lt_of_lt_of_le hg e1
      have := Nat.lt_of_mul_lt_mul_right this
      omega
    have hfin := w3 g _ hgg hcnt
    rw [← hop] at hfin
    refine (v3_shard_safe h hF3 hz hE ho hV hd hl hfr hn hf hrun hc hlb ?_ (t := tr1) ?_ ?_).2
    · rw [← hlen]
      exact (Nat.mul_le_mul_right _ (by omega)).trans w1
    · have e1 := h1.filter (fun e => decide (e.path = levelDirV3 root i ++ chunkKey (g :: l)))
      have e2 := hso (levelDirV3 root i ++ chunkKey (g :: l))
      have e3 := congrArg (fun l' => l'.filter fun e => decide (e.path = levelDirV3 root i ++ chunkKey (g :: l))) e2
      rw [List.filter_filter, List.filter_filter] at e3
      have e4 : (fun e : Ev => decide (e.path = levelDirV3 root i ++ chunkKey (g :: l)) &&
          decide (e.path = levelDirV3 root i ++ chunkKey (g :: l) ∨ e.path = arrayMetaPath c)) =
          fun e => decide (e.path = levelDirV3 root i ++ chunkKey (g :: l)) := by
        funext e
        by_cases he : e.path = levelDirV3 root i ++ chunkKey (g :: l) <;> simp [he]
      rw [e4] at e3
      rw [e3] at e1
      exact e1.trans (hpre.filter _)
    · have : Ev.finalized (levelDirV3 root i ++ chunkKey (g :: l)) ∈ about (levelDirV3 root i ++ chunkKey (g :: l)) t :=
        List.mem_filter.2 ⟨hfin, by simp [Ev.path]⟩
      rw [u2] at this
      exact (List.mem_filter.1 this).1

/-- **C35, version 3, for shards.** As `v2_completed_chunks` for append-shards completed by `calls1`. Missing for the full
claim: chunks of an append-shard that is not complete, for which it is violated (`v3_completed_chunk_violated`). -/
theorem v3_completed_shards_partial (h : Setup w fuel s cfg cfgs) (hF3 : cfg.dims.FitsV3) (hz : SizesInRange s) (hE : StorageOk env s)
    (ho : SmallOverhead env)
    (hV : s.version = 3) (hd : s.dimensions = some (a :: (inner ++ [y, x]))) (hl : StoredAt s root)
    (hfr : Fresh w s root) {calls1 calls2 : List (List Bytes)} (hn : (calls1 ++ calls2).flatten.length < 2 ^ 32)
    (hf : ∀ c ∈ calls1 ++ calls2, ∀ f ∈ c, f.length = y.arraySize * x.arraySize * itemSize s.dataType)
    {st0 st1 : SState} {ns1 : List Nat} (h0 : createStream w env fuel (some s) = some (.ok st0))
    (h1 : appends env (calls1.map List.flatten) st0 = .ok (st1, ns1))
    (hrun : runStream w env fuel s ((calls1 ++ calls2).map List.flatten) = some (.ok (st, ns, tr))) :
    st1.trace <+: tr ∧ ∀ i g l, i < cfgs.length →
      (g + 1) * (levelChunk a.isChannel a.arraySize a.chunkSize i * prod (sizesAt i inner) *
        levelShard a.isChannel a.arraySize a.chunkSize a.shardSize i) ≤ calls1.flatten.length / 2 ^ i →
      InBounds (shardGridAt i (inner ++ [y, x])) l →
      (∀ e ∈ tr.drop st1.trace.length, e.path ≠ levelDirV3 root i ++ chunkKey (g :: l)) ∧
      ∃ final, fileInStore w cfg (levelDirV3 root i ++ chunkKey (g :: l)) tr = some final ∧
        ∀ t1 tr1 tr', (∀ p, about p t1 = about p st1.trace) → (∀ p, about p tr' = about p tr) → t1 <+: tr1 → tr1 <+: tr' →
          ∀ c, TornImage (levelDirV3 root i ++ chunkKey (g :: l)) tr1 c → c = some final := by
  have hD := dimsOf h.valid h.commit hd
  rw [← hD.frame] at hf
  have hn1 : calls1.flatten.length < 2 ^ 32 := by
    rw [List.flatten_append, List.length_append] at hn; omega
  have hf1 : ∀ c ∈ calls1, ∀ f ∈ c, f.length = cfg.dims.frameBytes := fun c hc => hf c (by simp [hc])
  have hf2 : ∀ c ∈ calls2, ∀ f ∈ c, f.length = cfg.dims.frameBytes := fun c hc => hf c (by simp [hc])
  have hpre : st1.trace <+: tr := reached_prefix h hf1 hf2 h0 h1 hrun
  refine ⟨hpre, ?_⟩
  intro i g l hi hg hlb
  have hc : cfgs[i]? = some cfgs[i] := List.getElem?_eq_getElem hi
  generalize cfgs[i] = c at hc
  have hL := h.levelShape hz hd hc
  obtain ⟨d1, d2⟩ := h.levelDims.1 c (List.mem_of_getElem? hc)
  have d3 := h.levelFitsV3 hF3 c (List.mem_of_getElem? hc)
  have hk : 0 < c.dims.append.shardSize := d3.pos c.dims.append (by simp [ArrayDims.toList])
  have hpos := ArrayDims.framesPerChunk_pos d1 d2
  obtain ⟨hop, hcnt⟩ := shard_name h hz hV hd hl hc (G := g) hlb
  have hown : Owned c (levelDirV3 root i ++ chunkKey (g :: l)) := by rw [hop]; exact .inr ⟨_, _, rfl⟩
  have hfpc : c.dims.framesPerChunk = levelChunk a.isChannel a.arraySize a.chunkSize i * prod (sizesAt i inner) := by
    unfold ArrayDims.framesPerChunk
    rw [hL.append, hL.innerSizes]
  have hg1 : (g + 1) * c.dims.append.shardSize ≤ calls1.flatten.length / 2 ^ i / c.dims.framesPerChunk := by
    rw [Nat.le_div_iff_mul_le hpos, hfpc, hL.shardSplit.1]
    refine Nat.le_trans (Nat.le_of_eq ?_) hg
    ac_rfl
  have hg2 : (g + 1) * c.dims.append.shardSize ≤ (calls1 ++ calls2).flatten.length / 2 ^ i / c.dims.framesPerChunk := by
    refine hg1.trans (Nat.div_le_div_right (Nat.div_le_div_right ?_))
    rw [List.flatten_append, List.length_append]; omega
  have hfin : Ev.finalized (levelDirV3 root i ++ chunkKey (g :: l)) ∈ st1.trace := by
    have e := reached_events_v3 h hF3 hE ho hV hn1 hf1 h0 h1 hc hown.all
    have hm : Ev.finalized (levelDirV3 root i ++ chunkKey (g :: l)) ∈ eventsV3 env c (framesOfLevel cfg i calls1.flatten).flatten
        ((framesOfLevel cfg i calls1.flatten).length / c.dims.framesPerChunk) := by
      rw [hop, mem_range_flush_finalized hk hcnt, framesOfLevel_length]
      exact hg1
    have hm2 : Ev.finalized (levelDirV3 root i ++ chunkKey (g :: l)) ∈ within
        (fun q => decide (q = levelDirV3 root i ++ chunkKey (g :: l))) st1.trace := by
      rw [e]
      exact List.mem_filter.2 ⟨hm, by simp [Ev.path]⟩
    exact (List.mem_filter.1 hm2).1
  obtain ⟨e1, final, e2, _⟩ := v3_shard_safe h hF3 hz hE ho hV hd hl hfr hn hf hrun hc hlb hg2 (hpre.filter _) hfin
  constructor
  · intro e he hep
    have : about (levelDirV3 root i ++ chunkKey (g :: l)) tr =
        about (levelDirV3 root i ++ chunkKey (g :: l)) st1.trace ++
        about (levelDirV3 root i ++ chunkKey (g :: l)) (tr.drop st1.trace.length) := by
      obtain ⟨r, rfl⟩ := hpre
      unfold about
      rw [List.filter_append, List.drop_left]
    rw [e1] at this
    have hnil := List.self_eq_append_right.1 this
    have hm : e ∈ about (levelDirV3 root i ++ chunkKey (g :: l)) (tr.drop st1.trace.length) :=
      List.mem_filter.2 ⟨he, by simpa using hep⟩
    rw [hnil] at hm
    simp at hm
  · refine ⟨final, e2, ?_⟩
    intro t1 tr1 tr' p1 p2 p3 p4 img himg
    obtain ⟨_, final', f2, f3⟩ := v3_shard_safe h hF3 hz hE ho hV hd hl hfr hn hf hrun hc hlb hg2 (t := tr1) (by
      rw [← p2]; exact p4.filter _) (by
      apply p3.subset
      have : Ev.finalized (levelDirV3 root i ++ chunkKey (g :: l)) ∈ about (levelDirV3 root i ++ chunkKey (g :: l)) t1 := by
        rw [p1]
        exact List.mem_filter.2 ⟨hfin, by simp [Ev.path]⟩
      exact (List.mem_filter.1 this).1)
    rw [e2] at f2
    cases f2
    exact f3 img himg

end

/-! ### Violations -/

namespace Sample

/-- Version 3, frames of one one-byte pixel, `k` frames per chunk and `m` chunks per shard along the append dimension. -/
def slab (k m : Nat) : Settings where
  storePath := some "/tmp/a".toList
  customMetadata := none
  s3 := none
  compression := none
  dimensions := some [⟨some "t".toList, 2, 0, k, m⟩, ⟨some "y".toList, 0, 1, 1, 1⟩, ⟨some "x".toList, 0, 1, 1, 1⟩]
  multiscale := false
  dataType := 0
  version := 3

def slabCfg (k m : Nat) : WConfig where
  dims := ⟨⟨"t", .time, 0, k, m⟩, [], ⟨"y", .space, 1, 1, 1⟩, ⟨"x", .space, 1, 1, 1⟩, .u8⟩
  level := 0
  bucket := none
  storePath := "/tmp/a".toList
  compression := none
  version := .v3

theorem slabSetup : Setup Sample.world 9 (slab 2 2) (slabCfg 2 2) [slabCfg 2 2] :=
  ⟨rfl, rfl, rfl, rfl, by decide, fun h => by cases h⟩

/-- Whether after all but the last event the document for one frame is closed and the shard is still empty, while at the
end it is not. -/
def destroyCrash (calls : List Bytes) : Bool :=
  match runStream Sample.world Sample.env 9 (slab 2 2) calls with
  | some (.ok (_, ns, tr)) => ns == calls.map List.length &&
      (disk "/tmp/a/meta/root/0.array.json".toList tr.dropLast).file == some (metaDoc (slabCfg 2 2) 1) &&
      (disk "/tmp/a/meta/root/0.array.json".toList tr.dropLast).pending.isEmpty &&
      (disk "/tmp/a/data/root/0/c0/0/0".toList tr.dropLast).file == some [] &&
      (fileInStore Sample.world (slabCfg 2 2) "/tmp/a/data/root/0/c0/0/0".toList tr).any (fun b => b.take 2 == [5, 0])
  | _ => false

end Sample

/-- **C34 is violated in version 3 by destroy.** The last shard is incomplete: `finalize_array` closes the array document
before it drops the shard files. If the process dies in between, the document (which then has only one possible content)
describes one frame, and the shard file may be empty; without the crash it holds the frame. -/
theorem v3_destroy_crash_violated : ∃ st tr tr1 b v,
    runStream Sample.world Sample.env 9 (Sample.slab 2 2) [[5]] = some (.ok (st, [1], tr)) ∧ tr1 <+: tr ∧
    (∀ c, TornImage "/tmp/a/meta/root/0.array.json".toList tr1 c → c = some b) ∧ JsonFile b v ∧
    LevelDoc (Sample.slab 2 2) ((Sample.slab 2 2).dimensions.getD []) 0 1 v ∧
    WholeImage "/tmp/a/data/root/0/c0/0/0".toList tr1 (some []) ∧
    ∃ raw, fileInStore Sample.world (Sample.slabCfg 2 2) "/tmp/a/data/root/0/c0/0/0".toList tr = some raw ∧ raw.take 2 = [5, 0] := by
  have h : Sample.destroyCrash [[5]] = true := by decide +kernel
  unfold Sample.destroyCrash at h
  split at h
  · rename_i st ns tr heq
    simp only [Bool.and_eq_true, beq_iff_eq, List.isEmpty_iff] at h
    obtain ⟨⟨⟨⟨h1, h2⟩, h3⟩, h4⟩, h5⟩ := h
    rw [h1] at heq
    obtain ⟨v, v1, v2⟩ := level_doc Sample.slabSetup (by
      intro d hd
      have : d ∈ [(⟨some "t".toList, 2, 0, 2, 2⟩ : DimProps), ⟨some "y".toList, 0, 1, 1, 1⟩, ⟨some "x".toList, 0, 1, 1, 1⟩] := hd
      simp only [List.mem_cons, List.not_mem_nil, or_false] at this
      rcases this with rfl | rfl | rfl <;> decide) (by intro c hc; cases hc)
      (a := ⟨some "t".toList, 2, 0, 2, 2⟩) (inner := []) (y := ⟨some "y".toList, 0, 1, 1, 1⟩) (x := ⟨some "x".toList, 0, 1, 1, 1⟩)
      rfl (i := 0) (c := Sample.slabCfg 2 2) rfl 1
    refine ⟨st, tr, tr.dropLast, _, v, heq, List.dropLast_prefix _, ?_, v1, v2, ?_, ?_⟩
    · intro c hc
      rw [image_of_closed h3 hc, fileAfter_disk, h3, h2]
      rfl
    · refine ⟨0, ?_⟩
      rw [h4]
      rfl
    · cases hf : fileInStore Sample.world (Sample.slabCfg 2 2) "/tmp/a/data/root/0/c0/0/0".toList tr with
      | none => rw [hf] at h5; simp at h5
      | some raw =>
        rw [hf] at h5
        exact ⟨raw, rfl, by simpa using h5⟩
  · simp at h

/-- Whether after the appends the shard file may still be empty. -/
def Sample.shardPending (calls : List Bytes) : Bool :=
  match createStream Sample.world Sample.env 9 (some (Sample.slab 1 2)) with
  | some (.ok st0) =>
    match appends Sample.env calls st0 with
    | .ok (st, ns) => ns == calls.map List.length && (disk "/tmp/a/data/root/0/c0/0/0".toList st.trace).file == some []
    | _ => false
  | _ => false

/-- **C35 is violated in version 3 inside a shard.** One frame per chunk, two chunks per shard: the call that completes
the first chunk returns, and if the process then dies the shard file may be empty. -/
theorem v3_completed_chunk_violated : ∃ st0 st, createStream Sample.world Sample.env 9 (some (Sample.slab 1 2)) = some (.ok st0) ∧
    appends Sample.env [[5]] st0 = .ok (st, [1]) ∧ WholeImage "/tmp/a/data/root/0/c0/0/0".toList st.trace (some []) := by
  have h : Sample.shardPending [[5]] = true := by decide +kernel
  unfold Sample.shardPending at h
  split at h
  · rename_i st0 h0
    split at h
    · rename_i st ns h1
      simp only [Bool.and_eq_true, beq_iff_eq] at h
      rw [h.1] at h1
      refine ⟨st0, st, h0, h1, 0, ?_⟩
      rw [h.2]
      rfl
    · simp at h
  · simp at h

/-! ### Non-vacuity -/

/-- The sample session of eleven frames: at its end the document of level 0 is visible, so `v2_crash_metadata` applies with
a nonempty document; it then speaks about the chunk at the last grid position. -/
example : ∃ st ns tr b m v final, runStream Sample.world Sample.env 9 Sample.settings (Sample.calls.map List.flatten) =
      some (.ok (st, ns, tr)) ∧ WholeImage "/tmp/a.zarr/0/.zarray".toList tr (some b) ∧ JsonFile b v ∧
    LevelDoc Sample.settings [Sample.dimT, Sample.dimC, Sample.dimY, Sample.dimX] 0 m v ∧
    (m ≤ 0 ∨ ∀ c, TornImage "/tmp/a.zarr/0/0/1/2/2".toList tr c → c = some final) := by
  obtain ⟨cfgs, h, hl⟩ := Sample.setup
  obtain ⟨st, tr, h1, h2⟩ := v2_final_document (calls := Sample.calls) h Sample.sizesInRange Sample.realCodec
    Sample.storageOk rfl (a := Sample.dimT) (inner := [Sample.dimC]) (y := Sample.dimY) (x := Sample.dimX) rfl
    Sample.storedAt Sample.fresh (by decide) Sample.calls_sized
  obtain ⟨b, v, e1, e2, e3⟩ := (h2 0 (by omega)).2 (by decide)
  rw [fileInStore_fresh h.commit Sample.fresh] at e1
  have himg : WholeImage "/tmp/a.zarr/0/.zarray".toList tr (some b) := by
    refine ⟨(disk "/tmp/a.zarr/0/.zarray".toList tr).pending.length, ?_⟩
    rw [List.take_length, ← fileAfter_disk]
    exact e1.symm
  have hne : b ≠ [] := by
    rintro rfl
    obtain ⟨t, t1, t2⟩ := e2
    cases t with
    | nil =>
      rw [show parseJson [] = none from by decide] at t2
      simp at t2
    | cons c cs =>
      rw [List.flatMap_cons] at t1
      have := List.append_eq_nil_iff.1 t1
      exact String.utf8EncodeChar_ne_nil this.1
  obtain ⟨m, v', k1, k2, _, k4⟩ := v2_crash_metadata (calls := Sample.calls) h Sample.sizesInRange Sample.realCodec
    Sample.storageOk rfl (a := Sample.dimT) (inner := [Sample.dimC]) (y := Sample.dimY) (x := Sample.dimX) rfl
    Sample.storedAt Sample.fresh (by decide) Sample.calls_sized h1 (i := 0) (by omega) (tr' := tr) (fun _ => rfl)
    (List.prefix_refl _) himg hne
  rcases Nat.eq_zero_or_pos m with hm | hm
  · exact ⟨st, _, tr, b, m, v', [], h1, himg, k1, k2, .inl (by omega)⟩
  · obtain ⟨final, _, f2⟩ := k4 0 [1, 2, 2] (by rw [Nat.zero_mul]; exact hm) (by decide)
    exact ⟨st, _, tr, b, m, v', final, h1, himg, k1, k2, .inr f2⟩

/-- After the same calls the first chunk layer is complete, so `v2_completed_chunks` applies to its chunks. -/
example : ∃ st ns tr final, runStream Sample.world Sample.env 9 Sample.settings (Sample.calls.map List.flatten) =
      some (.ok (st, ns, tr)) ∧
    ∀ c, TornImage "/tmp/a.zarr/0/0/1/2/2".toList st.trace c → c = some final := by
  obtain ⟨cfgs, h, hl⟩ := Sample.setup
  obtain ⟨st, tr, h1, _⟩ := v2_final_document (calls := Sample.calls) h Sample.sizesInRange Sample.realCodec
    Sample.storageOk rfl (a := Sample.dimT) (inner := [Sample.dimC]) (y := Sample.dimY) (x := Sample.dimX) rfl
    Sample.storedAt Sample.fresh (by decide) Sample.calls_sized
  obtain ⟨st0, h0, h01⟩ := runStream_parts h1
  have := v2_completed_chunks (calls1 := Sample.calls) (calls2 := []) h Sample.sizesInRange
    Sample.storageOk rfl (a := Sample.dimT) (inner := [Sample.dimC]) (y := Sample.dimY) (x := Sample.dimX) rfl
    Sample.storedAt Sample.fresh (by decide) (by rw [List.append_nil]; exact Sample.calls_sized) h0 h01
    (by rw [List.append_nil]; exact h1)
  obtain ⟨hp, k⟩ := this
  obtain ⟨_, final, _, k2⟩ := k 0 0 [1, 2, 2] (by omega) (by decide) (by decide)
  exact ⟨st, _, tr, final, h1, k2 st.trace st.trace tr (fun _ => rfl) (fun _ => rfl) (List.prefix_refl _) hp⟩

/-- The same for the shards of the V3 store. -/
example : ∃ st ns tr final, runStream Sample.world Sample.env 9 Sample.settings3 (Sample.calls.map List.flatten) =
      some (.ok (st, ns, tr)) ∧
    ∀ c, TornImage "/tmp/a.zarr/data/root/0/c0/0/0/2".toList st.trace c → c = some final := by
  obtain ⟨st, tr, h1, _, _⟩ := v3_pixels_read_back_partial (calls := Sample.calls) Sample.setup3 Sample.fitsV3
    Sample.storageOk Sample.overhead rfl
    (a := Sample.dimT) (inner := [Sample.dimC]) (y := Sample.dimY) (x := Sample.dimX) rfl Sample.storedAt3 Sample.fresh3
    (decode := some) (fun _ => rfl) (by decide) Sample.calls_sized rfl
  obtain ⟨st0, h0, h01⟩ := runStream_parts h1
  obtain ⟨hp, k⟩ := v3_completed_shards_partial (calls1 := Sample.calls) (calls2 := []) Sample.setup3 Sample.fitsV3
    Sample.sizesInRange Sample.storageOk Sample.overhead rfl
    (a := Sample.dimT) (inner := [Sample.dimC]) (y := Sample.dimY) (x := Sample.dimX) rfl
    Sample.storedAt3 Sample.fresh3 (by decide) (by rw [List.append_nil]; exact Sample.calls_sized) h0 h01
    (by rw [List.append_nil]; exact h1)
  obtain ⟨_, final, _, k2⟩ := k 0 0 [0, 0, 2] (by decide) (by decide) (by decide)
  exact ⟨st, _, tr, final, h1, k2 st.trace st.trace tr (fun _ => rfl) (fun _ => rfl) (List.prefix_refl _) hp⟩

/-- Whether after the appends the document may be visible. -/
def Sample.docPending (calls : List Bytes) : Bool :=
  match runStream Sample.world Sample.env 9 (Sample.slab 2 2) calls with
  | some (.ok (st, ns, _)) => ns == calls.map List.length &&
      match (disk "/tmp/a/meta/root/0.array.json".toList st.trace).file with
      | some f => !(emit f (disk "/tmp/a/meta/root/0.array.json".toList st.trace).pending).isEmpty
      | none => false
  | _ => false

/-- Four frames complete the only shard of a layer of the V3 store: its document may be visible when the append returns,
so `v3_crash_metadata_partial` applies. -/
example : ∃ st ns tr b, runStream Sample.world Sample.env 9 (Sample.slab 2 2) [[5, 6, 7, 8]] = some (.ok (st, ns, tr)) ∧
    b ≠ [] ∧ WholeImage "/tmp/a/meta/root/0.array.json".toList st.trace (some b) ∧
    ∃ m v, JsonFile b v ∧ LevelDoc (Sample.slab 2 2) ((Sample.slab 2 2).dimensions.getD []) 0 m v ∧
      (0 < m → ∃ final, ∀ c, TornImage "/tmp/a/data/root/0/c0/0/0".toList st.trace c → c = some final) := by
  have h : Sample.docPending [[5, 6, 7, 8]] = true := by decide +kernel
  unfold Sample.docPending at h
  split at h
  · rename_i st ns tr heq
    rw [Bool.and_eq_true] at h
    obtain ⟨_, h2⟩ := h
    split at h2
    · rename_i f hf
      have hne : emit f (disk "/tmp/a/meta/root/0.array.json".toList st.trace).pending ≠ [] := by
        intro e
        rw [e] at h2
        simp at h2
      have himg : WholeImage "/tmp/a/meta/root/0.array.json".toList st.trace
          (some (emit f (disk "/tmp/a/meta/root/0.array.json".toList st.trace).pending)) :=
        ⟨(disk "/tmp/a/meta/root/0.array.json".toList st.trace).pending.length, by rw [List.take_length, hf]; rfl⟩
      obtain ⟨m, v, k1, k2, _, k4⟩ := v3_crash_metadata_partial (calls := [[[5], [6], [7], [8]]]) Sample.slabSetup
        (by decide) (by
          intro d hd
          have : d ∈ [(⟨some "t".toList, 2, 0, 2, 2⟩ : DimProps), ⟨some "y".toList, 0, 1, 1, 1⟩, ⟨some "x".toList, 0, 1, 1, 1⟩] := hd
          simp only [List.mem_cons, List.not_mem_nil, or_false] at this
          rcases this with rfl | rfl | rfl <;> decide) (by intro c hc; cases hc)
        Sample.storageOk Sample.overhead rfl
        (a := ⟨some "t".toList, 2, 0, 2, 2⟩) (inner := []) (y := ⟨some "y".toList, 0, 1, 1, 1⟩)
        (x := ⟨some "x".toList, 0, 1, 1, 1⟩) rfl (root := "/tmp/a".toList) ⟨rfl, _, rfl, .inr (by decide)⟩
        (.inl ⟨_, rfl, by decide⟩) (by decide) (by decide) heq (i := 0) (by decide) (tr' := st.trace) (fun _ => rfl)
        (List.prefix_refl _) himg hne
      refine ⟨st, ns, tr, _, heq, hne, himg, m, v, k1, k2, ?_⟩
      intro hm
      obtain ⟨final, _, f2⟩ := k4 0 [0, 0] (by rw [Nat.zero_mul]; exact hm) (by decide)
      exact ⟨final, f2⟩
    · simp at h2
  · simp at h

end AZ
