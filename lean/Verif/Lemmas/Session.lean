import Verif.Lemmas.StreamLevels

set_option linter.unusedSimpArgs false

/-! # Complete sessions -/

namespace AZ
open Spec

theorem writeDoc_paths {env : Env} {p : Text} {doc : Bytes} {evs : List Ev} (h : writeDoc env p doc = .ok evs) :
    ∀ e ∈ evs, e.path = p := by
  unfold writeDoc at h
  split at h
  · cases h; simp [Ev.path]
  · cases h; simp
  · simp at h
  · simp at h

theorem baseDoc_key (cfg : WConfig) (n : Nat) : (baseDoc cfg n).1 ∈ metaKeys cfg.version := by
  unfold baseDoc metaKeys
  cases cfg.version <;> simp only <;> simp

theorem groupDoc_key (cfg : WConfig) (n : Nat) : (groupDoc cfg n).1 ∈ metaKeys cfg.version := by
  unfold groupDoc metaKeys
  cases cfg.version <;> simp only <;> simp

theorem externalKey_mem (v : Version) : externalKey v ∈ metaKeys v := by
  unfold externalKey metaKeys
  cases v <;> simp only <;> simp

/-- The events of the stream-level documents. -/
def StreamDocs (cfg : WConfig) (evs : List Ev) : Prop :=
  ∀ e ∈ evs, ∃ key ∈ metaKeys cfg.version, e.path = metaSinkPath cfg key

theorem StreamDocs.append {cfg : WConfig} {a b : List Ev} (h : StreamDocs cfg a) (h' : StreamDocs cfg b) :
    StreamDocs cfg (a ++ b) := by
  intro e he
  rcases List.mem_append.1 he with he | he
  · exact h e he
  · exact h' e he

theorem writeDoc_docs {env : Env} {cfg : WConfig} {key : Text} (hk : key ∈ metaKeys cfg.version) {doc : Bytes}
    {evs : List Ev} (h : writeDoc env (metaSinkPath cfg key) doc = .ok evs) : StreamDocs cfg evs :=
  fun e he => ⟨key, hk, writeDoc_paths h e he⟩

/-- The state right after a successful creation. -/
structure Created (w : World) (env : Env) (fuel : Nat) (s : Settings) (cfg : WConfig) (cfgs : List WConfig)
    (st : SState) : Prop where
  valid : validateSettings w (some s) = .ok true
  commit : commitSettings s = .ok cfg
  store : w.storeOk cfg.storePath = true
  levels : levelConfigs fuel s.multiscale cfg = some (.ok cfgs)
  scfg : st.cfg = cfg
  slevels : st.levels = cfgs.map fun c => ⟨c, WState.init c, none⟩
  sms : st.multiscale = s.multiscale
  buf : st.buf = List.replicate (bytesOfFrame cfg.dims) 0
  offset : st.offset = 0
  error : st.error = []
  trace : StreamDocs cfg st.trace
  docs : ∃ e1 e2 e3, st.trace = ((metaKeys cfg.version).map (metaSinkPath cfg)).map Ev.opened ++ e1 ++ e2 ++ e3 ∧
    writeDoc env (metaSinkPath cfg (baseDoc cfg cfgs.length).1) (utf8 ((baseDoc cfg cfgs.length).2.dump 0)) = .ok e1 ∧
    writeDoc env (metaSinkPath cfg (groupDoc cfg cfgs.length).1) (utf8 ((groupDoc cfg cfgs.length).2.dump 0)) = .ok e2 ∧
    match externalDoc w s with
    | none => e3 = []
    | some doc => writeDoc env (metaSinkPath cfg (externalKey cfg.version)) doc = .ok e3

theorem createStream_ok {w : World} {env : Env} {fuel : Nat} {s : Settings} {st : SState}
    (h : createStream w env fuel (some s) = some (.ok st)) : ∃ cfg cfgs, Created w env fuel s cfg cfgs st := by
  unfold createStream at h
  split at h
  · simp at h
  · simp at h
  · simp at h
  · simp at h
  · rename_i s' hv hs
    cases hs
    split at h
    · simp at h
    · simp at h
    · rename_i cfg hc
      split at h
      · simp at h
      · rename_i hst
        split at h
        · simp at h
        · simp at h
        · simp at h
        · rename_i cfgs hl
          refine ⟨cfg, cfgs, ?_⟩
          simp only [Option.some.injEq] at h
          obtain ⟨_, _, h⟩ := Res.bind_eq_ok.1 h
          obtain ⟨e1, h1, h⟩ := Res.bind_eq_ok.1 h
          obtain ⟨e2, h2, h⟩ := Res.bind_eq_ok.1 h
          have hopen : StreamDocs cfg (((metaKeys cfg.version).map (metaSinkPath cfg)).map Ev.opened) := by
            intro e he
            obtain ⟨p, hp, rfl⟩ := List.mem_map.1 he
            obtain ⟨k, hk, rfl⟩ := List.mem_map.1 hp
            exact ⟨k, hk, rfl⟩
          have d1 := writeDoc_docs (baseDoc_key cfg _) h1
          have d2 := writeDoc_docs (groupDoc_key cfg _) h2
          have hst : w.storeOk cfg.storePath = true := by simpa using hst
          cases hext : externalDoc w s with
          | none =>
            rw [hext] at h
            simp only [Res.bind_ok, Res.pure_eq, Res.ok.injEq] at h
            subst h
            exact ⟨hv, hc, hst, hl, rfl, rfl, rfl, rfl, rfl, rfl,
              ((hopen.append d1).append d2).append (fun e he => by simp at he),
              e1, e2, [], rfl, h1, h2, by rw [hext]⟩
          | some doc =>
            rw [hext] at h
            obtain ⟨e3, h3, h⟩ := Res.bind_eq_ok.1 h
            simp only [Res.bind_ok, Res.pure_eq, Res.ok.injEq] at h
            subst h
            exact ⟨hv, hc, hst, hl, rfl, rfl, rfl, rfl, rfl, rfl,
              ((hopen.append d1).append d2).append (writeDoc_docs (externalKey_mem _) h3),
              e1, e2, e3, rfl, h1, h2, by rw [hext]; exact h3⟩

theorem levelConfigs_distinct {fuel : Nat} {ms : Bool} {cfg : WConfig} {cfgs : List WConfig}
    (h : levelConfigs fuel ms cfg = some (.ok cfgs)) : Distinct cfgs := by
  unfold Distinct
  rw [List.pairwise_iff_getElem]
  intro i j hi hj hij
  obtain ⟨a1, a2⟩ := levelConfigs_inherits h (List.getElem?_eq_getElem hi)
  obtain ⟨b1, b2⟩ := levelConfigs_inherits h (List.getElem?_eq_getElem hj)
  exact ⟨a1.same.symm.trans b1.same, by omega⟩

theorem levels_of_single {fuel : Nat} {cfg : WConfig} {cfgs : List WConfig}
    (h : levelConfigs fuel false cfg = some (.ok cfgs)) : cfgs = [cfg] := by
  simp [levelConfigs] at h
  exact h.symm

namespace Created

variable {w : World} {env : Env} {fuel : Nat} {s : Settings} {cfg : WConfig} {cfgs : List WConfig} {st : SState}

theorem cfgsEq (h : Created w env fuel s cfg cfgs st) : st.levels.map (·.cfg) = cfgs := by
  rw [h.slevels, List.map_map]
  exact List.map_id' _

theorem aligned (h : Created w env fuel s cfg cfgs st) : Aligned (bytesOfFrame cfg.dims) st := by
  refine ⟨h.offset, by rw [h.buf]; simp, ?_⟩
  obtain ⟨rest, hr⟩ := levelConfigs_head h.levels
  rw [h.slevels, hr]
  exact ⟨_, _, rfl, rfl⟩

theorem levelsOk_init (env : Env) (t : DType) (cs : List WConfig) (a b : Nat) :
    LevelsOk env t (cs.map fun c => ⟨c, WState.init c, none⟩) a b [] := by
  induction cs generalizing a b with
  | nil => trivial
  | cons c cs ih => exact ⟨rfl, rfl, ih _ _⟩

theorem streamOk (h : Created w env fuel s cfg cfgs st) : StreamOk env st [] := by
  obtain ⟨rest, hr⟩ := levelConfigs_head h.levels
  refine ⟨⟨cfg, WState.init cfg, none⟩, rest.map fun c => ⟨c, WState.init c, none⟩, ?_, rfl, ?_, ?_⟩
  · rw [h.slevels, hr]; rfl
  · intro hm
    rw [h.sms] at hm
    have := h.levels
    rw [hm] at this
    have := levels_of_single this
    rw [hr] at this
    simp at this
    rw [this]; rfl
  · exact levelsOk_init ..

theorem traceOk (h : Created w env fuel s cfg cfgs st) : TraceOk st st.trace := by
  refine ⟨by rw [h.cfgsEq]; exact levelConfigs_distinct h.levels, ?_, [], by simp, by simp, ?_⟩
  · intro lv hlv
    rw [h.slevels] at hlv
    obtain ⟨c, _, rfl⟩ := List.mem_map.1 hlv
    exact init_owned c
  · intro i lv hi p _
    have := List.mem_of_getElem? hi
    rw [h.slevels] at this
    obtain ⟨c, _, rfl⟩ := List.mem_map.1 this
    rfl

end Created

/-- The frames level `i` of a stream with level-0 configuration `cfg` receives. -/
def framesOfLevel (cfg : WConfig) (i : Nat) (frames : List Bytes) : List Bytes :=
  levelFrames cfg.dims.dtype i cfg.dims.width.arraySize cfg.dims.height.arraySize frames

/-- What a complete session of whole frames leaves: per level, the history of a lone array writer that
was given the level's frames; elsewhere only stream-level documents. -/
structure SessionOk (env : Env) (cfg : WConfig) (cfgs : List WConfig) (frames : List Bytes) (tr : List Ev) :
    Prop where
  level : ∀ (i : Nat) (c : WConfig), cfgs[i]? = some c → ∃ stf,
    runArray env c (framesOfLevel cfg i frames) = .ok stf ∧ ∀ p, Owned c p → about p tr = about p stf.trace
  ordered : ∀ (i : Nat) (c : WConfig), cfgs[i]? = some c → ∀ stf, runArray env c (framesOfLevel cfg i frames) = .ok stf →
    ∀ P, OwnedAll c P → within P tr = within P stf.trace
  rest : ∀ e ∈ tr, (∃ c ∈ cfgs, Owned c e.path) ∨ ∃ key ∈ metaKeys cfg.version, e.path = metaSinkPath cfg key

/-- What a session leaves when level 0 received the frames `fs` and the pyramid the frames `gs`. -/
structure SessionOk2 (env : Env) (cfg : WConfig) (cfgs : List WConfig) (fs gs : List Bytes) (tr : List Ev) :
    Prop where
  level : ∀ (i : Nat) (c : WConfig), cfgs[i]? = some c → ∃ stf,
    runArray env c (framesOfLevel cfg i (if i = 0 then fs else gs)) = .ok stf ∧
      ∀ P, OwnedAll c P → within P tr = within P stf.trace
  rest : ∀ e ∈ tr, (∃ c ∈ cfgs, Owned c e.path) ∨ ∃ key ∈ metaKeys cfg.version, e.path = metaSinkPath cfg key

theorem destroy_session2 {env : Env} {st st1 : SState} {base tr : List Ev} {w : World} {fuel : Nat} {s : Settings}
    {cfg : WConfig} {cfgs : List WConfig} {fs gs : List Bytes}
    (hc : Created w env fuel s cfg cfgs st) (hb : base = st.trace) (hk : Keeps st st1)
    (hs : StreamOk2 env st1 fs gs) (ht : TraceOk st1 base) (h : destroyStream env st1 = .ok tr) :
    SessionOk2 env cfg cfgs fs gs tr := by
  unfold destroyStream at h
  obtain ⟨e1, h1, h⟩ := Res.bind_eq_ok.1 h
  obtain ⟨e2, h2, h⟩ := Res.bind_eq_ok.1 h
  obtain ⟨e3, h3, h⟩ := Res.bind_eq_ok.1 h
  simp only [Res.pure_eq, Res.ok.injEq] at h
  subst h
  have hcfg : st1.cfg = cfg := hk.cfg.trans hc.scfg
  have hcfgs : st1.levels.map (·.cfg) = cfgs := hk.cfgs.trans hc.cfgsEq
  obtain ⟨f1, f2⟩ := finalizeLevels_spec h3 ht.distinct ht.sinks
  obtain ⟨evs, t1, t2, t3⟩ := ht.tr
  have d1 : StreamDocs cfg e1 := by
    have := writeDoc_docs (groupDoc_key st1.cfg _) h1
    rwa [hcfg] at this
  have d2 : StreamDocs cfg e2 := by
    rw [finalizeSinks_paths h2, hcfg]
    intro e he
    obtain ⟨p, hp, rfl⟩ := List.mem_map.1 he
    obtain ⟨k, hk, rfl⟩ := List.mem_map.1 hp
    exact ⟨k, hk, rfl⟩
  have d0 : StreamDocs cfg base := by rw [hb]; exact hc.trace
  have hmem : ∀ lv ∈ st1.levels, lv.cfg ∈ cfgs := fun lv hlv => by
    rw [← hcfgs]; exact List.mem_map_of_mem hlv
  have key : ∀ (i : Nat) (c : WConfig), cfgs[i]? = some c → ∃ stf,
      runArray env c (framesOfLevel cfg i (if i = 0 then fs else gs)) = .ok stf ∧
      ∀ P, OwnedAll c P → within P (st1.trace ++ e1 ++ e2 ++ e3) = within P stf.trace := by
    intro i c hi
    have : (st1.levels.map (·.cfg))[i]? = some c := by rw [hcfgs]; exact hi
    rw [List.getElem?_map, Option.map_eq_some_iff] at this
    obtain ⟨lv, hlv, rfl⟩ := this
    obtain ⟨stf, g1, g2⟩ := f2 lv (List.mem_of_getElem? hlv)
    refine ⟨stf, ?_, ?_⟩
    · have := hs.get hlv
      rw [hcfg] at this
      unfold runArray framesOfLevel
      rw [this]
      exact g1
    · intro P hp
      rw [g2 P hp, t1, ← t3 i lv hlv P hp]
      have hno : ∀ es, StreamDocs cfg es → within P es = [] := by
        intro es hes
        apply within_nil_of
        intro e he hep
        obtain ⟨k, hk, hk2⟩ := hes e he
        have hss := (levelConfigs_inherits hc.levels hi).1.same
        exact owned_ne_sink hss hk (hp _ hep) hk2.symm
      simp only [within_append, hno _ d0, hno _ d1, hno _ d2, List.nil_append, List.append_nil]
  refine ⟨key, ?_⟩
  · intro e he
    rw [t1] at he
    simp only [List.mem_append] at he
    rcases he with (((he | he) | he) | he) | he
    · exact .inr (d0 e he)
    · obtain ⟨lv, hlv, ho⟩ := t2 e he
      exact .inl ⟨lv.cfg, hmem lv hlv, ho⟩
    · exact .inr (d1 e he)
    · exact .inr (d2 e he)
    · obtain ⟨lv, hlv, ho⟩ := f1 e he
      exact .inl ⟨lv.cfg, hmem lv hlv, ho⟩

theorem SessionOk2.same {env : Env} {cfg : WConfig} {cfgs : List WConfig} {frames : List Bytes} {tr : List Ev}
    (h : SessionOk2 env cfg cfgs frames frames tr) : SessionOk env cfg cfgs frames tr := by
  have key : ∀ (i : Nat) (c : WConfig), cfgs[i]? = some c → ∃ stf,
      runArray env c (framesOfLevel cfg i frames) = .ok stf ∧ ∀ P, OwnedAll c P → within P tr = within P stf.trace := by
    intro i c hi
    have := h.level i c hi
    rwa [ite_self] at this
  refine ⟨?_, ?_, h.rest⟩
  · intro i c hi
    obtain ⟨stf, k1, k2⟩ := key i c hi
    exact ⟨stf, k1, fun p hp => k2 _ hp.all⟩
  · intro i c hi stf hr
    obtain ⟨stf', k1, k2⟩ := key i c hi
    rw [hr] at k1
    cases k1
    exact k2

theorem destroy_session {env : Env} {st st1 : SState} {base tr : List Ev} {w : World} {fuel : Nat} {s : Settings}
    {cfg : WConfig} {cfgs : List WConfig} {frames : List Bytes}
    (hc : Created w env fuel s cfg cfgs st) (hb : base = st.trace) (hk : Keeps st st1)
    (hs : StreamOk env st1 frames) (ht : TraceOk st1 base) (h : destroyStream env st1 = .ok tr) :
    SessionOk env cfg cfgs frames tr := (destroy_session2 hc hb hk hs ht h).same

/-- **Sessions are per-level array runs.** -/
theorem session_ok {w : World} {env : Env} {fuel : Nat} {s : Settings} {calls : List (List Bytes)}
    {cfg : WConfig} {cfgs : List WConfig} {st : SState} {ns : List Nat} {tr : List Ev}
    (hcm : commitSettings s = .ok cfg) (hl : levelConfigs fuel s.multiscale cfg = some (.ok cfgs))
    (hF : 0 < bytesOfFrame cfg.dims) (hf : ∀ c ∈ calls, ∀ f ∈ c, f.length = bytesOfFrame cfg.dims)
    (h : runStream w env fuel s (calls.map List.flatten) = some (.ok (st, ns, tr))) :
    SessionOk env cfg cfgs calls.flatten tr ∧ ns = calls.map fun c => c.flatten.length := by
  unfold runStream at h
  split at h
  · simp at h
  · simp at h
  · simp at h
  · rename_i st0 h0
    obtain ⟨cfg', cfgs', hc⟩ := createStream_ok h0
    have e1 := hc.commit
    rw [hcm] at e1
    cases e1
    have e2 := hc.levels
    rw [hl] at e2
    cases e2
    simp only [Option.some.injEq] at h
    obtain ⟨⟨st1, ns1⟩, h1, h⟩ := Res.bind_eq_ok.1 h
    dsimp only at h
    obtain ⟨tr1, h2, h⟩ := Res.bind_eq_ok.1 h
    simp only [Res.pure_eq, Res.ok.injEq, Prod.mk.injEq] at h
    obtain ⟨rfl, rfl, rfl⟩ := h
    obtain ⟨h3, h4⟩ := appends_aligned_ok hF calls hf hc.aligned h1
    refine ⟨?_, h4⟩
    have hff : ∀ f ∈ calls.flatten, f.length = bytesOfFrame cfg.dims := by
      intro f hfm
      obtain ⟨c, hcm, hfc⟩ := List.mem_flatten.1 hfm
      exact hf c hcm f hfc
    have := foldFrames_ok hF calls.flatten (gs := []) hff hc.aligned h3 hc.streamOk
    exact destroy_session hc rfl (foldFrames_keeps h3) this (foldFrames_trace h3 hc.traceOk) h2

end AZ
