import Verif.Props.SplitCalls
import Verif.Props.ObjectsV3

set_option linter.unusedSimpArgs false

/-!
# C94: the pyramid follows the full-resolution array however the bytes are cut into calls

It does when calls begin at frame boundaries. The frame stored in place of a frame that was begun by an earlier call is
written to level 0 only: `split_pyramid_exact` says, for every sequence of calls that stays inside its buffers, from which
frames each level is made. -/

namespace AZ
open Spec

variable {w : World} {env : Env} {fuel : Nat} {s : Settings} {cfg : WConfig} {cfgs : List WConfig}
variable {a : DimProps} {inner : List DimProps} {y x : DimProps} {calls : List Bytes}

theorem frameSize_eq (h : Setup w fuel s cfg cfgs) (hd : s.dimensions = some (a :: (inner ++ [y, x]))) :
    bytesOfFrame cfg.dims = frameSize s y x := by
  rw [ArrayDims.bytesOfFrame_eq h.dimsValid h.fits]; exact (dimsOf h.valid h.commit hd).frame

/-- Any environment, any version: the history of a successful session, level by level. -/
theorem split_levels (h : Setup w fuel s cfg cfgs) (h3 : s.version = 3 → cfg.dims.FitsV3)
    (hd : s.dimensions = some (a :: (inner ++ [y, x]))) (hin : StaysInside (frameSize s y x) 0 calls)
    {st : SState} {ns : List Nat} {tr : List Ev} (hr : runStream w env fuel s calls = some (.ok (st, ns, tr))) :
    ns = sessionBytesOut (frameSize s y x) 0 calls ∧
    SessionOk2 env cfg cfgs (sessionFrames (frameSize s y x) 0 calls).flatten
      (sessionPyramid (frameSize s y x) 0 calls).flatten tr := by
  obtain ⟨st0, a1, a2, a3⟩ := runStream_ok hr
  obtain ⟨hF, hh, _, _⟩ := reached_healthy h h3 hd ⟨st0, [], a1, rfl⟩ (env := env) (prev := [])
  obtain ⟨cfg', cfgs', hc⟩ := createStream_ok a1
  have e1 : cfg' = cfg := by
    have := hc.commit.symm.trans h.commit
    simpa using this
  subst e1
  have e2 : cfgs' = cfgs := by
    have := hc.levels.symm.trans h.levels
    simpa using this
  subst e2
  have ha := hc.aligned
  rw [frameSize_eq h hd] at ha
  have e : st0 = rebuf st0.buf 0 st0 := by
    have := hc.offset
    cases st0
    simp [rebuf] at this ⊢
    exact this
  rw [e] at a2
  obtain ⟨st', b', o', rfl, k1, k2, k3, k4⟩ := appends_effect hF calls hh hh.buf hF hin ha hc.streamOk hc.traceOk a2
  rw [List.nil_append, List.nil_append] at k3
  rw [destroy_rebuf] at a3
  exact ⟨k2, destroy_session2 hc rfl k1 k3 k4 a3⟩

/-- The writers of a healthy stream work. -/
theorem levels_work (h : Setup w fuel s cfg cfgs) (hE : StorageOk env s) (h3 : s.version = 3 → cfg.dims.FitsV3 ∧ SmallOverhead env) :
    ∀ c ∈ cfgs, WriterWorks (2 ^ 32) env c := by
  obtain ⟨d1, d2⟩ := h.levelDims
  rcases (validateSettings_ok h.valid).version with hV | hV
  · exact fun c hc => writerWorks_v2 (hE.good h hc) (h.versionV2 hV c hc) (d1 c hc).1 (d1 c hc).2
  · have d3 := h.levelFitsV3 (h3 hV).1
    exact fun c hc => writerWorks_v3 (hE.good h hc) (h3 hV).2 (h.versionV3 hV c hc) (d1 c hc).1 (d1 c hc).2 (d3 c hc)

/-- A healthy session of whole frames succeeds, in both versions. -/
theorem whole_works (h : Setup w fuel s cfg cfgs) (hE : StorageOk env s) (h3 : s.version = 3 → cfg.dims.FitsV3 ∧ SmallOverhead env)
    {calls : List (List Bytes)} (hn : calls.flatten.length < 2 ^ 32) (hf : ∀ c ∈ calls, ∀ f ∈ c, f.length = cfg.dims.frameBytes) :
    ∃ st tr, runStream w env fuel s (calls.map List.flatten) = some (.ok (st, calls.map (fun c => c.flatten.length), tr)) := by
  rcases (validateSettings_ok h.valid).version with hV | hV
  · obtain ⟨st, tr, h1, _⟩ := session_v2 h hE hV hn hf
    exact ⟨st, tr, h1⟩
  · obtain ⟨st, tr, h1, _⟩ := session_v3 h (h3 hV).1 hE (h3 hV).2 hV hn hf
    exact ⟨st, tr, h1⟩

/-- Healthy storage: the session succeeds. -/
theorem split_works (h : Setup w fuel s cfg cfgs) (hE : StorageOk env s) (h3' : s.version = 3 → cfg.dims.FitsV3 ∧ SmallOverhead env)
    (hd : s.dimensions = some (a :: (inner ++ [y, x]))) (hin : StaysInside (frameSize s y x) 0 calls)
    (hn : (sessionFrames (frameSize s y x) 0 calls).flatten.length < 2 ^ 32) :
    ∃ st tr, runStream w env fuel s calls = some (.ok (st, sessionBytesOut (frameSize s y x) 0 calls, tr)) ∧ st.error = [] := by
  have h3 : s.version = 3 → cfg.dims.FitsV3 := fun hh => (h3' hh).1
  have hw := h.levelsWork (env := env) (levels_work h hE h3')
  obtain ⟨st0, a1⟩ := createStream_works hE.works h.valid h.commit h.store h.levels
  obtain ⟨hF, hh, _, _⟩ := reached_healthy h h3 hd ⟨st0, [], a1, rfl⟩ (env := env) (prev := [])
  obtain ⟨cfg', cfgs', hc⟩ := createStream_ok a1
  have e1 : cfg' = cfg := by
    have := hc.commit.symm.trans h.commit
    simpa using this
  subst e1
  have e2 : cfgs' = cfgs := by
    have := hc.levels.symm.trans h.levels
    simpa using this
  subst e2
  have ha := hc.aligned
  have hfs := frameSize_eq h hd
  have e : st0 = rebuf st0.buf 0 st0 := by
    have := hc.offset
    cases st0
    simp [rebuf] at this ⊢
    exact this
  have hpn := sessionPyramid_le (frameSize s y x) 0 calls
  rw [← hfs] at hh hin hn hF hpn
  obtain ⟨stf, ns, b1, b2⟩ := appends_effect_works hw calls hh hh.buf hF hin hc.scfg hc.cfgsEq hc.sms ha hc.streamOk
    hc.traceOk hc.error (by simpa using hn) (by simpa using (Nat.lt_of_le_of_lt hpn hn)) (by simp)
  obtain ⟨st', b', o', hst, k1, k2, k3, k4⟩ := appends_effect hF calls hh hh.buf hF hin ha hc.streamOk hc.traceOk b1
  rw [List.nil_append, List.nil_append] at k3
  obtain ⟨tr, htr⟩ := destroy_works hE.works h.levels hw.toLevelsWork0 hc k1 k3 hn (Nat.lt_of_le_of_lt hpn hn) (by
    intro f hf
    obtain ⟨c, hcm, hfc⟩ := List.mem_flatten.1 hf
    exact sessionFrames_length hin c hcm f hfc)
  rw [← e] at b1
  rw [← hfs, ← k2]
  exact ⟨stf, tr, runStream_of a1 b1 (by rw [hst, destroy_rebuf]; exact htr), b2⟩

theorem sessionPyramid_length {F o : Nat} {calls : List Bytes} :
    ∀ c ∈ sessionPyramid F o calls, ∀ f ∈ c, f.length = F := by
  induction calls generalizing o with
  | nil => intro c hc; simp [sessionPyramid] at hc
  | cons d ds ih =>
    intro c hc
    rw [sessionPyramid] at hc
    rcases List.mem_cons.1 hc with rfl | hc
    · exact callPyramid_length
    · exact ih c hc

theorem fold_about (p : Text) (tr : List Ev) (c : Option Bytes) :
    tr.foldl (stepFile p) c = (about p tr).foldl (stepFile p) c := by
  induction tr generalizing c with
  | nil => rfl
  | cons e es ih =>
    rw [List.foldl_cons]
    by_cases he : e.path = p
    · have : about p (e :: es) = e :: about p es := by simp [about, he]
      rw [this, List.foldl_cons, ih]
    · have : about p (e :: es) = about p es := by simp [about, he]
      rw [this, ← ih]
      have h2 : stepFile p c e = c := by unfold stepFile; rw [if_pos he]
      rw [h2]

/-- The name of a chunk file (version 2) or shard file (version 3) of level `i`, relative to the store. -/
def dataName (version i : Nat) (l : List Nat) : Text :=
  if version = 2 then decimal i ++ '/' :: chunkKey l else "data/root/".toList ++ decimal i ++ "/c".toList ++ chunkKey l

/-- **Exact.** Healthy storage, calls cut anywhere inside their buffers. The session succeeds; the chunks (shards) and the array document of
level 0 are those of the session in which every call passes the frames it stores, those of every further level those of
the session in which every call passes only the frames of `sessionPyramid`. -/
theorem split_pyramid_exact (h : Setup w fuel s cfg cfgs) (hE : StorageOk env s) (h3' : s.version = 3 → cfg.dims.FitsV3 ∧ SmallOverhead env)
    (hd : s.dimensions = some (a :: (inner ++ [y, x]))) {root : Text} (hr : StoredAt s root)
    (hin : StaysInside (frameSize s y x) 0 calls)
    (hn : (sessionFrames (frameSize s y x) 0 calls).flatten.length < 2 ^ 32) :
    ∃ st tr st0 ns0 tr0 st1 ns1 tr1,
      runStream w env fuel s calls = some (.ok (st, sessionBytesOut (frameSize s y x) 0 calls, tr)) ∧
      runStream w env fuel s ((sessionFrames (frameSize s y x) 0 calls).map List.flatten) = some (.ok (st0, ns0, tr0)) ∧
      runStream w env fuel s ((sessionPyramid (frameSize s y x) 0 calls).map List.flatten) = some (.ok (st1, ns1, tr1)) ∧
      ∀ i, i < cfgs.length → ∀ q, q = arrayDocName s.version i ∨ (∃ g l, q = dataName s.version i (g :: l)) →
        fileInStore w cfg (root ++ '/' :: q) tr = fileInStore w cfg (root ++ '/' :: q) (if i = 0 then tr0 else tr1) := by
  have h3 : s.version = 3 → cfg.dims.FitsV3 := fun hh => (h3' hh).1
  have hfs := frameSize_eq h hd
  have hpos : 0 < bytesOfFrame cfg.dims := by
    rw [ArrayDims.bytesOfFrame_eq h.dimsValid h.fits]
    exact ArrayDims.frameBytes_pos h.dimsValid h.fits
  obtain ⟨st, tr, r1, _⟩ := split_works h hE h3' hd hin hn
  have hfl := sessionFrames_length hin
  have hpl := sessionPyramid_length (F := frameSize s y x) (o := 0) (calls := calls)
  have hfb : frameSize s y x = cfg.dims.frameBytes := (dimsOf h.valid h.commit hd).frame.symm
  obtain ⟨st0, tr0, r2⟩ := whole_works h hE h3' hn (by rw [← hfb]; exact hfl)
  obtain ⟨st1, tr1, r3⟩ := whole_works h hE h3'
    (Nat.lt_of_le_of_lt (sessionPyramid_le (frameSize s y x) 0 calls) hn) (by rw [← hfb]; exact hpl)
  have s1 := (split_levels h h3 hd hin r1).2
  obtain ⟨s2, _⟩ := session_ok h.commit h.levels hpos (by rw [hfs]; exact hfl) r2
  obtain ⟨s3, _⟩ := session_ok h.commit h.levels hpos (by rw [hfs]; exact hpl) r3
  refine ⟨st, tr, st0, _, tr0, st1, _, tr1, r1, r2, r3, ?_⟩
  intro i hi q hq
  have hc : cfgs[i]? = some cfgs[i] := List.getElem?_eq_getElem hi
  generalize cfgs[i] = c at hc
  have ho : Owned c (root ++ '/' :: q) := by
    rcases hq with rfl | ⟨g, l, rfl⟩
    · left
      exact (LocatedAt.arrayDoc (.inl hr) h hc).symm
    · right
      refine ⟨g, l, ?_⟩
      unfold dataName
      rcases (validateSettings_ok h.valid).version with hV | hV
      · rw [if_pos hV, objectPath_key (h.versionV2 hV c (List.mem_of_getElem? hc)), levelDir_eq h hr hc]
        unfold levelDir
        simp only [List.append_assoc, List.cons_append, List.nil_append]
      · rw [if_neg (by rw [hV]; decide), objectPath_keyV3 (h.versionV3 hV c (List.mem_of_getElem? hc)), levelDirV3_eq h hr hc]
        unfold levelDirV3
        simp only [List.append_assoc, List.cons_append, List.nil_append]
  have key : about (root ++ '/' :: q) tr = about (root ++ '/' :: q) (if i = 0 then tr0 else tr1) := by
    obtain ⟨stf, k1, k2⟩ := s1.level i c hc
    have k2 : about (root ++ '/' :: q) tr = about (root ++ '/' :: q) stf.trace := k2 _ ho.all
    rw [k2]
    by_cases h0 : i = 0
    · rw [if_pos h0] at k1 ⊢
      obtain ⟨stf', m1, m2⟩ := s2.level i c hc
      rw [k1] at m1
      cases m1
      exact (m2 _ ho).symm
    · rw [if_neg h0] at k1 ⊢
      obtain ⟨stf', m1, m2⟩ := s3.level i c hc
      rw [k1] at m1
      cases m1
      exact (m2 _ ho).symm
  unfold fileInStore
  dsimp only
  rw [fold_about, key, ← fold_about]

theorem boundaries {F : Nat} (calls : List Bytes) (hb : ∀ c ∈ calls.dropLast, F ∣ c.length) :
    StaysInside F 0 calls ∧ sessionPyramid F 0 calls = sessionFrames F 0 calls := by
  induction calls with
  | nil => exact ⟨trivial, rfl⟩
  | cons d ds ih =>
    have h1 : ¬ Overreads F 0 d.length := fun hh => absurd hh.1.1 (by omega)
    have h2 : callPyramid F 0 d = callFrames F 0 d := by
      rw [callPyramid, callFrames, if_pos rfl, if_pos rfl]
    cases ds with
    | nil => exact ⟨⟨h1, trivial⟩, by simp only [sessionPyramid, sessionFrames, h2]⟩
    | cons e es =>
      have h3 : nextPending F 0 d.length = 0 := by
        rw [nextPending, if_pos rfl]
        exact Nat.mod_eq_zero_of_dvd (hb d (by simp))
      obtain ⟨i1, i2⟩ := ih fun c hc => hb c (by simp only [List.dropLast_cons_cons]; exact List.mem_cons_of_mem _ hc)
      refine ⟨⟨h1, ?_⟩, ?_⟩
      · rw [h3]; exact i1
      · rw [sessionPyramid, sessionFrames, h2, h3, i2]

/-- When every call but the last passes whole frames, all levels are those of the session that passes exactly the frames
stored in level 0. Missing: calls that begin inside a frame, for which the claim is false (`pyramid_follows_violated`). -/
theorem pyramid_follows_partial (h : Setup w fuel s cfg cfgs) (hE : StorageOk env s) (h3' : s.version = 3 → cfg.dims.FitsV3 ∧ SmallOverhead env)
    (hd : s.dimensions = some (a :: (inner ++ [y, x]))) {root : Text} (hr : StoredAt s root)
    (hb : ∀ c ∈ calls.dropLast, frameSize s y x ∣ c.length)
    (hn : (sessionFrames (frameSize s y x) 0 calls).flatten.length < 2 ^ 32) :
    ∃ st ns tr st0 ns0 tr0, runStream w env fuel s calls = some (.ok (st, ns, tr)) ∧
      runStream w env fuel s ((sessionFrames (frameSize s y x) 0 calls).map List.flatten) = some (.ok (st0, ns0, tr0)) ∧
      ∀ i, i < cfgs.length → ∀ q, q = arrayDocName s.version i ∨ (∃ g l, q = dataName s.version i (g :: l)) →
        fileInStore w cfg (root ++ '/' :: q) tr = fileInStore w cfg (root ++ '/' :: q) tr0 := by
  obtain ⟨b1, b2⟩ := boundaries calls hb
  obtain ⟨st, tr, st0, ns0, tr0, st1, ns1, tr1, r1, r2, r3, r4⟩ := split_pyramid_exact h hE h3' hd hr b1 hn
  rw [b2, r2] at r3
  simp only [Option.some.injEq, Res.ok.injEq, Prod.mk.injEq] at r3
  obtain ⟨_, _, rfl⟩ := r3
  refine ⟨st, _, tr, st0, ns0, tr0, r1, r2, ?_⟩
  intro i hi q hq
  have := r4 i hi q hq
  rwa [ite_self] at this

/-! ### The sample -/

/-- Ten bytes, a frame, ten bytes, a frame. -/
def Sample.twoSplit : List Bytes :=
  [(Sample.frame 0).take 10, Sample.frame 1, (Sample.frame 2).take 10, Sample.frame 3]

theorem Sample.twoSplit_spec : StaysInside 70 0 Sample.twoSplit ∧
    sessionBytesOut 70 0 Sample.twoSplit = [10, 120, 10, 120] ∧
    sessionFrames 70 0 Sample.twoSplit = [[], [Sample.frame 1], [], [Sample.frame 3]] ∧
    sessionPyramid 70 0 Sample.twoSplit = [[], [], [], []] := by
  have e1 : ∀ k, ((Sample.frame k).take 10).length = 10 := by intro k; simp [Sample.frame_length]
  have e2 := Sample.frame_length
  have n1 : nextPending 70 0 10 = 10 := by decide
  have n2 : nextPending 70 10 70 = 0 := by decide
  have c1 : ∀ k, callFrames 70 0 ((Sample.frame k).take 10) = [] := by
    intro k
    rw [callFrames, if_pos rfl, wholeFrames_none (by rw [e1]; omega)]
  have c2 : ∀ k, callFrames 70 10 (Sample.frame k) = [Sample.frame k] := by
    intro k
    rw [callFrames, if_neg (by omega), if_pos (by rw [e2]; decide), e2, List.take_of_length_le (by rw [e2]),
      wholeFrames_none (by rw [List.length_take]; omega)]
  have p1 : ∀ k, callPyramid 70 0 ((Sample.frame k).take 10) = [] := by
    intro k
    rw [callPyramid, if_pos rfl, wholeFrames_none (by rw [e1]; omega)]
  have p2 : ∀ k, callPyramid 70 10 (Sample.frame k) = [] := by
    intro k
    rw [callPyramid, if_neg (by omega), if_pos (by rw [e2]; decide), e2, wholeFrames_none (by rw [List.length_take]; omega)]
  unfold Sample.twoSplit
  refine ⟨?_, ?_, ?_, ?_⟩
  · simp only [StaysInside, e1, e2, n1, n2]
    decide
  · simp only [sessionBytesOut, e1, e2, n1, n2]
    decide
  · simp only [sessionFrames, e1, e2, n1, n2, c1, c2]
  · simp only [sessionPyramid, e1, e2, n1, n2, p1, p2]

/-- The claim fails: two frames are stored in level 0 (they read back), but level 1 is empty; the session that passes the
same two frames in whole has the same level 0 and a frame in level 1. All calls succeed in both. -/
theorem pyramid_follows_violated :
    ∃ st tr st0 ns0 tr0,
      runStream Sample.world Sample.env 9 Sample.settings Sample.twoSplit = some (.ok (st, [10, 120, 10, 120], tr)) ∧
      runStream Sample.world Sample.env 9 Sample.settings [[], Sample.frame 1, [], Sample.frame 3] = some (.ok (st0, ns0, tr0)) ∧
      (∀ g l, fileInStore Sample.world Sample.cfg ("/tmp/a.zarr/0/".toList ++ chunkKey (g :: l)) tr =
        fileInStore Sample.world Sample.cfg ("/tmp/a.zarr/0/".toList ++ chunkKey (g :: l)) tr0) ∧
      (∃ b, fileInStore Sample.world Sample.cfg "/tmp/a.zarr/1/0/0/0/0".toList tr0 = some b) ∧
      (∀ b, fileInStore Sample.world Sample.cfg "/tmp/a.zarr/1/0/0/0/0".toList tr ≠ some b) := by
  obtain ⟨cfgs, h, hl⟩ := Sample.setup
  obtain ⟨t1, t2, t3, t4⟩ := Sample.twoSplit_spec
  have hfs : frameSize Sample.settings Sample.dimY Sample.dimX = 70 := rfl
  obtain ⟨st, tr, st0, ns0, tr0, st1, ns1, tr1, r1, r2, r3, r4⟩ := split_pyramid_exact (calls := Sample.twoSplit) h
    Sample.storageOk (fun h => by cases h) (a := Sample.dimT) (inner := [Sample.dimC]) (y := Sample.dimY) (x := Sample.dimX) rfl
    Sample.storedAt (by rw [hfs]; exact t1) (by rw [hfs, t3]; simp)
  rw [hfs, t2] at r1
  rw [hfs, t3] at r2
  rw [hfs, t4] at r3
  obtain ⟨st0', tr0', k1, k2⟩ := v2_objects_exact (calls := [[], [Sample.frame 1], [], [Sample.frame 3]]) h
    Sample.sizesInRange Sample.storageOk rfl (a := Sample.dimT) (inner := [Sample.dimC]) (y := Sample.dimY)
    (x := Sample.dimX) rfl Sample.storedAt Sample.fresh (by simp) (by
      intro c hc f hf
      simp only [List.mem_cons, List.not_mem_nil, or_false] at hc
      rcases hc with rfl | rfl | rfl | rfl <;> simp only [List.mem_cons, List.not_mem_nil, or_false] at hf <;> subst hf <;>
        exact Sample.frame_length _)
  rw [r2] at k1
  simp only [Option.some.injEq, Res.ok.injEq, Prod.mk.injEq] at k1
  obtain ⟨_, _, rfl⟩ := k1
  obtain ⟨st1', tr1', m1, m2⟩ := v2_objects_exact (calls := [[], [], [], []]) h
    Sample.sizesInRange Sample.storageOk rfl (a := Sample.dimT) (inner := [Sample.dimC]) (y := Sample.dimY)
    (x := Sample.dimX) rfl Sample.storedAt Sample.fresh (by simp) (by
      intro c hc f hf
      simp only [List.mem_cons, List.not_mem_nil, or_false, or_self] at hc
      subst hc
      exact absurd hf (by simp))
  rw [r3] at m1
  simp only [Option.some.injEq, Res.ok.injEq, Prod.mk.injEq] at m1
  obtain ⟨_, _, rfl⟩ := m1
  simp only [List.map_cons, List.map_nil, List.flatten_cons, List.flatten_nil, List.append_nil] at r2
  refine ⟨st, tr, st0, _, tr0, r1, r2, ?_, ?_, ?_⟩
  · intro g l
    exact r4 0 (by omega) _ (.inr ⟨g, l, rfl⟩)
  · exact (k2 "1/0/0/0/0".toList).2 (.inr ⟨1, by omega, .inr ⟨0, [0, 0, 0], by decide, by decide, by decide⟩⟩)
  · intro b hb
    have e : "/tmp/a.zarr".toList ++ '/' :: dataName 2 1 [0, 0, 0, 0] = "/tmp/a.zarr/1/0/0/0/0".toList := by decide
    have := r4 1 (by omega) (dataName 2 1 [0, 0, 0, 0]) (.inr ⟨0, [0, 0, 0], rfl⟩)
    rw [e, if_neg (by decide), hb] at this
    rcases (m2 "1/0/0/0/0".toList).1 ⟨b, this.symm⟩ with ⟨n, n1, n2⟩ | ⟨i, _, ⟨j1, _⟩ | ⟨g, l, _, j2, _⟩⟩
    · revert n2
      revert n
      decide
    · exact absurd j1 (by simp)
    · revert j2
      simp only [List.flatten_cons, List.flatten_nil, List.append_nil, List.length_nil, Nat.zero_div, ceilDiv, Nat.zero_add]
      generalize levelChunk _ _ _ _ * prod _ = k
      rcases k with _ | k
      · simp
      · rw [Nat.div_eq_of_lt (by omega)]; omega

end AZ
