import Verif.Lemmas.Crash
import Verif.Lemmas.AppendCalls
import Verif.Props.Metadata

set_option linter.unusedSimpArgs false

/-! # Crash images of sessions -/

namespace AZ
open Spec

/-- A file has at most one JSON value. -/
theorem jsonFile_unique {b : Bytes} {v v' : JVal} (h : JsonFile b v) (h' : JsonFile b v') : v = v' := by
  obtain ⟨t, e, p⟩ := h
  obtain ⟨t', e', p'⟩ := h'
  have : t.utf8Encode = t'.utf8Encode := by
    unfold List.utf8Encode
    rw [e, e']
  have h2 : t = t' := by
    have e1 := @List.utf8Decode?_utf8Encode t
    have e2 := @List.utf8Decode?_utf8Encode t'
    rw [this, e2] at e1
    simpa using e1.symm
  rw [h2, p'] at p
  cases p
  rfl

theorem writeLevel0_more {env : Env} {st st' : SState} {data : Bytes} {k : Nat}
    (h : writeLevel0 env st data = .ok (st', k)) : st.trace <+: st'.trace := by
  unfold writeLevel0 at h
  split at h
  · simp at h
  · obtain ⟨⟨l0', n, evs, errs⟩, h1, h⟩ := Res.bind_eq_ok.1 h
    simp only [Res.pure_eq, Res.ok.injEq, Prod.mk.injEq] at h
    rw [← h.1]
    exact List.prefix_append _ _

theorem writeMultiscale_more {env : Env} {st st' : SState} {data : Bytes}
    (h : writeMultiscale env st data = .ok st') : st.trace <+: st'.trace := by
  unfold writeMultiscale at h
  split at h
  · cases h; exact List.prefix_refl _
  · split at h
    · cases h; exact List.prefix_refl _
    · obtain ⟨⟨rest', evs, errs⟩, h1, h⟩ := Res.bind_eq_ok.1 h
      simp only [Res.pure_eq, Res.ok.injEq] at h
      rw [← h]
      exact List.prefix_append _ _

theorem foldFrames_more {env : Env} {fs : List Bytes} {st st' : SState} (h : foldFrames env fs st = .ok st') :
    st.trace <+: st'.trace := by
  induction fs generalizing st with
  | nil => cases h; exact List.prefix_refl _
  | cons f fs ih =>
    rw [foldFrames] at h
    obtain ⟨s1, h1, h2⟩ := Res.bind_eq_ok.1 h
    unfold frameStep at h1
    obtain ⟨⟨s0, k⟩, h3, h4⟩ := Res.bind_eq_ok.1 h1
    exact (writeLevel0_more h3).trans ((writeMultiscale_more h4).trans (ih h2))

/-- The events of the array of `cfg`. -/
noncomputable def ownedBy (cfg : WConfig) : Text → Bool :=
  open Classical in fun p => decide (Owned cfg p)

theorem ownedBy_iff {cfg : WConfig} {p : Text} : ownedBy cfg p = true ↔ Owned cfg p := by
  unfold ownedBy
  simp

theorem runEventsV2_owned (env : Env) {cfg : WConfig} (hv : cfg.dims.Valid) (hf : cfg.dims.Fits) (S : Bytes) (n : Nat) :
    within (ownedBy cfg) (runEventsV2 env cfg S n) = runEventsV2 env cfg S n := by
  unfold within
  rw [List.filter_eq_self]
  intro e he
  rw [ownedBy_iff]
  rw [runEventsV2_eq env hv hf] at he
  rcases List.mem_append.1 he with he | he
  · obtain ⟨g, _, he⟩ := List.mem_flatMap.1 he
    unfold groupV2 at he
    rcases List.mem_append.1 he with he | he
    · right
      unfold dataEventsV2 at he
      simp only [List.mem_append, List.mem_map] at he
      rcases he with (⟨c, _, rfl⟩ | ⟨c, _, rfl⟩) | ⟨c, _, rfl⟩ <;> exact ⟨_, _, rfl⟩
    · left
      exact metaEvents_path he
  · left
    split at he
    · simp at he
    · simp only [List.mem_singleton] at he
      rw [he]; rfl

section
variable {w : World} {env : Env} {fuel : Nat} {s : Settings} {cfg : WConfig} {cfgs : List WConfig}
  {a y x : DimProps} {inner : List DimProps} {calls : List (List Bytes)}
  {st : SState} {ns : List Nat} {tr : List Ev}

/-- The events of a level in a version 2 session, in their order. -/
theorem session_events_v2 (h : Setup w fuel s cfg cfgs) (hE : StorageOk env s) (hV : s.version = 2)
    (hn : calls.flatten.length < 2 ^ 32) (hf : ∀ c ∈ calls, ∀ f ∈ c, f.length = cfg.dims.frameBytes)
    (hrun : runStream w env fuel s (calls.map List.flatten) = some (.ok (st, ns, tr)))
    {i : Nat} {c : WConfig} (hc : cfgs[i]? = some c) :
    within (ownedBy c) tr = runEventsV2 env c (framesOfLevel cfg i calls.flatten).flatten (framesOfLevel cfg i calls.flatten).length := by
  have hF := ArrayDims.bytesOfFrame_eq h.dimsValid h.fits
  obtain ⟨hS, _⟩ := session_ok h.commit h.levels (by rw [hF]; exact ArrayDims.frameBytes_pos h.dimsValid h.fits)
    (by rw [hF]; exact hf) hrun
  obtain ⟨d1, d2⟩ := h.levelDims.1 c (List.mem_of_getElem? hc)
  have hff : ∀ f ∈ calls.flatten, f.length = cfg.dims.frameBytes := by
    intro f hfm
    obtain ⟨c, hcm, hfc⟩ := List.mem_flatten.1 hfm
    exact hf c hcm f hfc
  obtain ⟨stf, k1, _, k3⟩ := runArray_v2 (hE.good h (List.mem_of_getElem? hc)) (h.versionV2 hV c (List.mem_of_getElem? hc)) d1 d2
    (framesOfLevel cfg i calls.flatten) (by
      rw [framesOfLevel_length]; exact Nat.lt_of_le_of_lt (Nat.div_le_self _ _) hn) (framesOfLevel_sizes h hff hc)
  rw [hS.ordered i c hc stf k1 (ownedBy c) (fun p hp => ownedBy_iff.1 hp), k3, runEventsV2_owned env d1 d2]

/-- The events of a level of a stream after whole-frame calls. -/
theorem reached_level (h : Setup w fuel s cfg cfgs) (hf : ∀ c ∈ calls, ∀ f ∈ c, f.length = cfg.dims.frameBytes)
    {st0 : SState} (h0 : createStream w env fuel (some s) = some (.ok st0))
    (hrun : appends env (calls.map List.flatten) st0 = .ok (st, ns))
    {i : Nat} {c : WConfig} (hc : cfgs[i]? = some c) :
    ∃ ws, writeFrames env c (framesOfLevel cfg i calls.flatten) (WState.init c) = .ok ws ∧
      ∀ P, OwnedAll c P → within P st.trace = within P ws.trace := by
  have hF := ArrayDims.bytesOfFrame_eq h.dimsValid h.fits
  have hF0 : 0 < bytesOfFrame cfg.dims := by rw [hF]; exact ArrayDims.frameBytes_pos h.dimsValid h.fits
  have hff : ∀ f ∈ calls.flatten, f.length = cfg.dims.frameBytes := by
    intro f hfm
    obtain ⟨c, hcm, hfc⟩ := List.mem_flatten.1 hfm
    exact hf c hcm f hfc
  obtain ⟨cfg', cfgs', hC⟩ := createStream_ok h0
  have e1 := hC.commit
  rw [h.commit] at e1
  cases e1
  have e2 := hC.levels
  rw [h.levels] at e2
  cases e2
  obtain ⟨h3, _⟩ := appends_aligned_ok hF0 calls (by rw [hF]; exact hf) hC.aligned hrun
  have hSO := foldFrames_ok hF0 calls.flatten (gs := []) (by rw [hF]; exact hff) hC.aligned h3 hC.streamOk
  have hT := foldFrames_trace h3 hC.traceOk
  have hk := foldFrames_keeps h3
  have hcfgs : st.levels.map (·.cfg) = cfgs := hk.cfgs.trans hC.cfgsEq
  have hcfg : st.cfg = cfg := hk.cfg.trans hC.scfg
  have : (st.levels.map (·.cfg))[i]? = some c := by rw [hcfgs]; exact hc
  rw [List.getElem?_map, Option.map_eq_some_iff] at this
  obtain ⟨lv, hlv, rfl⟩ := this
  obtain ⟨evs, t1, t2, t3⟩ := hT.tr
  have hw := StreamOk2.getSame hSO hlv
  rw [hcfg, List.nil_append] at hw
  refine ⟨lv.st, hw, fun P hP => ?_⟩
  have hbase : within P st0.trace = [] := by
    apply within_nil_of
    intro e he hep
    obtain ⟨k, hk, hk2⟩ := hC.trace e he
    have hss := (levelConfigs_inherits hC.levels hc).1.same
    exact owned_ne_sink hss hk (hP _ hep) hk2.symm
  rw [t1, within_append, hbase, List.nil_append, t3 i lv hlv _ hP]

/-- The history only grows. -/
theorem reached_prefix (h : Setup w fuel s cfg cfgs) {calls1 calls2 : List (List Bytes)}
    (hf1 : ∀ c ∈ calls1, ∀ f ∈ c, f.length = cfg.dims.frameBytes) (hf2 : ∀ c ∈ calls2, ∀ f ∈ c, f.length = cfg.dims.frameBytes)
    {st0 st1 : SState} {ns1 : List Nat} (h0 : createStream w env fuel (some s) = some (.ok st0))
    (h1 : appends env (calls1.map List.flatten) st0 = .ok (st1, ns1))
    (hrun : runStream w env fuel s ((calls1 ++ calls2).map List.flatten) = some (.ok (st, ns, tr))) :
    st1.trace <+: tr := by
  have hF := ArrayDims.bytesOfFrame_eq h.dimsValid h.fits
  have hF0 : 0 < bytesOfFrame cfg.dims := by rw [hF]; exact ArrayDims.frameBytes_pos h.dimsValid h.fits
  unfold runStream at hrun
  rw [h0] at hrun
  simp only [Option.some.injEq] at hrun
  obtain ⟨⟨s2, n2⟩, k1, k2⟩ := Res.bind_eq_ok.1 hrun
  dsimp only at k2
  obtain ⟨tr2, k3, k4⟩ := Res.bind_eq_ok.1 k2
  simp only [Res.pure_eq, Res.ok.injEq, Prod.mk.injEq] at k4
  obtain ⟨rfl, rfl, rfl⟩ := k4
  rw [List.map_append] at k1
  obtain ⟨s1', n1', n2', e1, e2, _⟩ := appends_append_ok _ _ k1
  rw [h1] at e1
  cases e1
  obtain ⟨cfg', cfgs', hC⟩ := createStream_ok h0
  have e3 := hC.commit
  rw [h.commit] at e3
  cases e3
  obtain ⟨f1, _⟩ := appends_aligned_ok hF0 calls1 (by rw [hF]; exact hf1) hC.aligned h1
  obtain ⟨f2, _⟩ := appends_aligned_ok hF0 calls2 (by rw [hF]; exact hf2) (hC.aligned.keeps (foldFrames_keeps f1)) e2
  refine (foldFrames_more f2).trans ?_
  unfold destroyStream at k3
  obtain ⟨_, _, k3⟩ := Res.bind_eq_ok.1 k3
  obtain ⟨_, _, k3⟩ := Res.bind_eq_ok.1 k3
  obtain ⟨_, _, k3⟩ := Res.bind_eq_ok.1 k3
  simp only [Res.pure_eq, Res.ok.injEq] at k3
  subst k3
  simp only [List.append_assoc]
  exact List.prefix_append _ _

/-- The events of a level in a version 2 stream after whole-frame calls. -/
theorem reached_events_v2 (h : Setup w fuel s cfg cfgs) (hE : StorageOk env s) (hV : s.version = 2)
    (hn : calls.flatten.length < 2 ^ 32) (hf : ∀ c ∈ calls, ∀ f ∈ c, f.length = cfg.dims.frameBytes)
    {st0 : SState} (h0 : createStream w env fuel (some s) = some (.ok st0))
    (hrun : appends env (calls.map List.flatten) st0 = .ok (st, ns))
    {i : Nat} {c : WConfig} (hc : cfgs[i]? = some c) :
    within (ownedBy c) st.trace = within (ownedBy c) (eventsV2 env c (framesOfLevel cfg i calls.flatten).flatten
      ((framesOfLevel cfg i calls.flatten).length / c.dims.framesPerChunk)) := by
  obtain ⟨ws, w1, w2⟩ := reached_level h hf h0 hrun hc
  have hff : ∀ f ∈ calls.flatten, f.length = cfg.dims.frameBytes := by
    intro f hfm
    obtain ⟨c, hcm, hfc⟩ := List.mem_flatten.1 hfm
    exact hf c hcm f hfc
  obtain ⟨d1, d2⟩ := h.levelDims.1 c (List.mem_of_getElem? hc)
  obtain ⟨stw, k1, k2⟩ := writeFrames_inv2 (hE.good h (List.mem_of_getElem? hc)) (h.versionV2 hV c (List.mem_of_getElem? hc)) d1 d2
    (framesOfLevel cfg i calls.flatten) (n := 0) (by
      rw [Nat.zero_add, framesOfLevel_length]; exact Nat.lt_of_le_of_lt (Nat.div_le_self _ _) hn) (framesOfLevel_sizes h hff hc)
      (inv2_init env (h.versionV2 hV c (List.mem_of_getElem? hc)))
  rw [w1] at k1
  cases k1
  have htr := k2.tr
  rw [List.nil_append, Nat.zero_add] at htr
  rw [w2 _ (fun p hp => ownedBy_iff.1 hp), htr]

end

end AZ
