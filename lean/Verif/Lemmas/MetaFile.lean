import Verif.Lemmas.Session
import Verif.Lemmas.SessionWorks
import Verif.Spec.History

set_option linter.unusedSimpArgs false

/-! # The metadata documents in the history of a stream -/

namespace AZ
open Spec

/-! ### What a writer does to its metadata object, on any storage -/

/-- Steps that only touch data objects. -/
structure DStep (cfg : WConfig) (st st' : WState) : Prop where
  trace : ∃ evs, st'.trace = st.trace ++ evs ∧ ∀ e ∈ evs, ∃ g l, e.path = objectPath cfg g l
  sinks : (∀ p ∈ st.dataSinks, ∃ g l, p = objectPath cfg g l) →
    ∀ p ∈ st'.dataSinks, ∃ g l, p = objectPath cfg g l
  fw : st'.framesWritten = st.framesWritten
  ms : st'.metaSink = st.metaSink
  fin : st'.finalizing = st.finalizing

def DStepO (cfg : WConfig) (st st' : WState) : Prop :=
  (∀ p ∈ st.dataSinks, ∃ g l, p = objectPath cfg g l) → DStep cfg st st'

theorem DStep.refl (cfg : WConfig) (st : WState) : DStep cfg st st :=
  ⟨⟨[], by simp⟩, id, rfl, rfl, rfl⟩

theorem DStep.trans {cfg : WConfig} {a b c : WState} (h1 : DStep cfg a b) (h2 : DStep cfg b c) :
    DStep cfg a c := by
  obtain ⟨⟨e1, t1, o1⟩, d1, f1, m1, n1⟩ := h1
  obtain ⟨⟨e2, t2, o2⟩, d2, f2, m2, n2⟩ := h2
  refine ⟨⟨e1 ++ e2, by rw [t2, t1, List.append_assoc], ?_⟩, fun h => d2 (d1 h), f2.trans f1, m2.trans m1,
    n2.trans n1⟩
  intro e he
  rcases List.mem_append.1 he with h | h
  · exact o1 e h
  · exact o2 e h

theorem DStepO.trans {cfg : WConfig} {a b c : WState} (h1 : DStepO cfg a b) (h2 : DStepO cfg b c) :
    DStepO cfg a c := fun h => (h1 h).trans (h2 ((h1 h).sinks h))

theorem DStep.o {cfg : WConfig} {a b : WState} (h : DStep cfg a b) : DStepO cfg a b := fun _ => h

theorem dstep_compress (env : Env) (cfg : WConfig) (st : WState) : DStep cfg st (compressBuffers env cfg st) := by
  unfold compressBuffers
  split
  · exact DStep.refl _ _
  · exact ⟨⟨[], by simp⟩, id, rfl, rfl, rfl⟩

theorem makeDataSinks_paths {env : Env} {cfg : WConfig} {st st' : WState}
    (h : makeDataSinks env cfg st = some st') : ∀ p ∈ st'.dataSinks, ∃ g l, p = objectPath cfg g l := by
  unfold makeDataSinks at h
  split at h
  · simp at h
  · rename_i paths hp
    split at h
    · cases h
      intro p hpm
      obtain ⟨l, rfl⟩ := mem_dataPaths hp hpm
      exact ⟨_, _, rfl⟩
    · simp at h

theorem dstep_makeDataSinks {env : Env} {cfg : WConfig} {st st' : WState}
    (h : makeDataSinks env cfg st = some st') : DStep cfg st st' := by
  have hp := makeDataSinks_paths h
  unfold makeDataSinks at h
  split at h
  · simp at h
  · split at h
    · cases h
      refine ⟨⟨_, rfl, ?_⟩, fun _ => hp, rfl, rfl, rfl⟩
      intro e he
      obtain ⟨p, hpm, rfl⟩ := List.mem_map.1 he
      exact hp p hpm
    · simp at h

theorem dstep_flushImplV2 {env : Env} {cfg : WConfig} {st st' : WState}
    (h : flushImplV2 env cfg st = .ok st') : DStep cfg st st' := by
  unfold flushImplV2 at h
  obtain ⟨_, _, h⟩ := Res.bind_eq_ok.1 h
  split at h
  · simp at h
  · rename_i st1 hm
    obtain ⟨_, _, h⟩ := Res.bind_eq_ok.1 h
    simp only [Res.pure_eq, Res.ok.injEq] at h
    subst h
    have hs := makeDataSinks_paths hm
    refine (dstep_makeDataSinks hm).trans ⟨⟨_, rfl, ?_⟩, fun h => h, rfl, rfl, rfl⟩
    intro e he
    obtain ⟨r, hr, her⟩ := List.mem_flatMap.1 he
    obtain ⟨⟨p, b⟩, hz, rfl⟩ := List.mem_map.1 hr
    rw [chunkJob_path her]
    exact hs p (List.of_mem_zip hz).1

theorem dstep_flushImplV3 {env : Env} {cfg : WConfig} {st st' : WState}
    (h : flushImplV3 env cfg st = .ok st') : DStepO cfg st st' := by
  intro hown
  unfold flushImplV3 at h
  dsimp only at h
  split at h
  · simp at h
  · rename_i st1 hm
    have h1 : DStep cfg st st1 := by
      split at hm
      · exact dstep_makeDataSinks hm
      · cases hm; exact DStep.refl _ _
    have hown1 := h1.sinks hown
    obtain ⟨_, hlen, h⟩ := Res.bind_eq_ok.1 h
    rw [check_eq_ok] at hlen
    simp only [beq_iff_eq] at hlen
    split at h
    · simp at h
    · obtain ⟨roll, _, h⟩ := Res.bind_eq_ok.1 h
      obtain ⟨_, _, h⟩ := Res.bind_eq_ok.1 h
      simp only [Res.pure_eq, Res.ok.injEq] at h
      subst h
      refine h1.trans ⟨⟨_, rfl, ?_⟩, fun h => h, rfl, rfl, rfl⟩
      intro e he
      obtain ⟨j, hj, hej⟩ := List.mem_flatMap.1 he
      obtain ⟨i, hi, rfl⟩ := List.mem_map.1 hj
      rw [shardJob_path e hej]
      have hi' : i < st1.dataSinks.length := by rw [hlen]; exact List.mem_range.1 hi
      have : st1.dataSinks.getD i [] = st1.dataSinks[i] := by
        rw [List.getD_eq_getElem?_getD, List.getElem?_eq_getElem hi']; rfl
      rw [this]
      exact hown1 _ (List.getElem_mem hi')

theorem dstep_flushImpl {env : Env} {cfg : WConfig} {st st' : WState}
    (h : flushImpl env cfg st = .ok st') : DStepO cfg st st' := by
  unfold flushImpl at h
  split at h
  · exact (dstep_flushImplV2 h).o
  · exact dstep_flushImplV3 h

theorem dstep_rollover {env : Env} {cfg : WConfig} {st st' : WState} (h : rollover env st = .ok st') :
    DStepO cfg st st' := by
  intro hown
  unfold rollover at h
  obtain ⟨evs, he, h⟩ := Res.bind_eq_ok.1 h
  simp only [Res.pure_eq, Res.ok.injEq] at h
  subst h
  refine ⟨⟨evs, rfl, ?_⟩, by simp, rfl, rfl, rfl⟩
  rw [finalizeSinks_paths he]
  intro e he
  obtain ⟨p, hp, rfl⟩ := List.mem_map.1 he
  exact hown p hp

theorem about_data {cfg : WConfig} {evs : List Ev} (h : ∀ e ∈ evs, ∃ g l, e.path = objectPath cfg g l) :
    about (arrayMetaPath cfg) evs = [] := by
  apply about_nil_of
  intro e he hp
  obtain ⟨g, l, hgl⟩ := h e he
  exact objectPath_ne_meta cfg g l (hgl.symm.trans hp)

/-- The document describing `n` frames. -/
def docFor (cfg : WConfig) (n : Nat) : Bytes := metaDoc cfg (ceilDiv n (prod (aShape cfg.dims.inner)))

/-- The metadata events so far: nothing, or the sink was opened once and documents for a non-decreasing
number of frames were written at offset 0. -/
structure MInv (cfg : WConfig) (st : WState) (ns : List Nat) : Prop where
  sinks : ∀ p ∈ st.dataSinks, ∃ g l, p = objectPath cfg g l
  tr : about (arrayMetaPath cfg) st.trace = if st.metaSink then
    .opened (arrayMetaPath cfg) :: ns.map fun n => .wrote (arrayMetaPath cfg) 0 (docFor cfg n) else []
  closed : st.metaSink = false → ns = []
  sorted : ns.Pairwise (· ≤ ·)
  le : ∀ n ∈ ns, n ≤ st.framesWritten

theorem MInv.dstep {cfg : WConfig} {a b : WState} {ns : List Nat} (h : MInv cfg a ns) (hs : DStepO cfg a b) :
    MInv cfg b ns := by
  have hs := hs h.sinks
  obtain ⟨evs, t1, t2⟩ := hs.trace
  refine ⟨hs.sinks h.sinks, ?_, by rw [hs.ms]; exact h.closed, h.sorted, by rw [hs.fw]; exact h.le⟩
  rw [t1, about_append, about_data t2, List.append_nil, h.tr, hs.ms]

theorem writeArrayMetadata_minv {env : Env} {cfg : WConfig} (hv : cfg.dims.Valid) (hf : cfg.dims.Room)
    {st st' : WState} {ns : List Nat} (h : MInv cfg st ns) (hn : st.framesWritten < 2 ^ 32)
    (hw : writeArrayMetadata env cfg st = .ok st') :
    ∃ ns', MInv cfg st' ns' ∧ st'.framesWritten = st.framesWritten ∧
      (ns' = ns ∨ ns' = ns ++ [st.framesWritten]) := by
  unfold writeArrayMetadata at hw
  dsimp only at hw
  obtain ⟨_, _, hw⟩ := Res.bind_eq_ok.1 hw
  obtain ⟨n, h1, hw⟩ := Res.bind_eq_ok.1 hw
  have hfw : ((if st.metaSink then st else
      { st with metaSink := true, trace := st.trace ++ [.opened (arrayMetaPath cfg)] }) : WState).framesWritten =
      st.framesWritten := by split <;> rfl
  have h0 : MInv cfg (if st.metaSink then st else
      { st with metaSink := true, trace := st.trace ++ [.opened (arrayMetaPath cfg)] }) ns ∧
      (if st.metaSink then st else
      { st with metaSink := true, trace := st.trace ++ [.opened (arrayMetaPath cfg)] } : WState).metaSink = true := by
    split
    · rename_i hm; exact ⟨h, hm⟩
    · rename_i hm
      have hm : st.metaSink = false := by simpa using hm
      refine ⟨⟨h.sinks, ?_, by simp, h.sorted, h.le⟩, rfl⟩
      have := h.tr
      rw [hm] at this
      rw [h.closed hm, about_append, this]
      simp [Ev.path]
  rw [hfw, appendSize_eq (ArrayDims.innerOk hv hf) hn] at h1
  cases h1
  generalize (if st.metaSink then st else
      { st with metaSink := true, trace := st.trace ++ [.opened (arrayMetaPath cfg)] }) = s1 at *
  obtain ⟨h0, hms⟩ := h0
  split at hw
  · simp only [Res.pure_eq, Res.ok.injEq] at hw
    subst hw
    refine ⟨ns ++ [st.framesWritten], ⟨h0.sinks, ?_, by simp [hms], ?_, ?_⟩, hfw, .inr rfl⟩
    · have := h0.tr
      rw [hms] at this
      rw [about_append, this, hms]
      simp [Ev.path, docFor]
    · rw [List.pairwise_append]
      refine ⟨h0.sorted, by simp, ?_⟩
      intro a ha b hb
      simp at hb
      rw [hb, ← hfw]
      exact h0.le a ha
    · intro m hm
      show m ≤ s1.framesWritten
      rcases List.mem_append.1 hm with hm | hm
      · exact h0.le m hm
      · simp at hm; omega
  · simp only [Res.pure_eq, Res.ok.injEq] at hw
    subst hw
    exact ⟨ns, h0, hfw, .inl rfl⟩
  · simp at hw
  · simp at hw

theorem flush_minv {env : Env} {cfg : WConfig} (hv : cfg.dims.Valid) (hf : cfg.dims.Room)
    {st st' : WState} {ns : List Nat} (h : MInv cfg st ns) (hn : st.framesWritten < 2 ^ 32)
    (hw : flush env cfg st = .ok st') :
    ∃ ns', MInv cfg st' ns' ∧ st'.framesWritten = st.framesWritten ∧
      (ns' = ns ∨ ns' = ns ++ [st.framesWritten]) := by
  rw [flush_seq] at hw
  split at hw
  · cases hw; exact ⟨ns, h, rfl, .inl rfl⟩
  · obtain ⟨s2, h2, hw⟩ := Res.bind_eq_ok.1 hw
    obtain ⟨roll, _, hw⟩ := Res.bind_eq_ok.1 hw
    obtain ⟨s3, h3, hw⟩ := Res.bind_eq_ok.1 hw
    obtain ⟨s4, h4, hw⟩ := Res.bind_eq_ok.1 hw
    simp only [Res.pure_eq, Res.ok.injEq] at hw
    have e3 : DStepO cfg s2 s3 := by
      split at h3
      · exact dstep_rollover h3
      · cases h3; exact (DStep.refl _ _).o
    have e := ((dstep_compress env cfg st).o.trans (dstep_flushImpl h2)).trans e3
    have m3 := h.dstep e
    have f3 := (e h.sinks).fw
    split at h4
    · obtain ⟨ns', k1, k2, k3⟩ := writeArrayMetadata_minv hv hf m3 (by omega) h4
      subst hw
      rw [f3] at k2 k3
      exact ⟨ns', ⟨k1.sinks, k1.tr, k1.closed, k1.sorted, k1.le⟩, k2, k3⟩
    · cases h4
      subst hw
      exact ⟨ns, ⟨m3.sinks, m3.tr, m3.closed, m3.sorted, m3.le⟩, f3, .inl rfl⟩

theorem MInv.mono {cfg : WConfig} {a b : WState} {ns : List Nat} (h : MInv cfg a ns) (ht : b.trace = a.trace)
    (hs : b.dataSinks = a.dataSinks) (hm : b.metaSink = a.metaSink) (hf : a.framesWritten ≤ b.framesWritten) :
    MInv cfg b ns :=
  ⟨by rw [hs]; exact h.sinks, by rw [ht, hm]; exact h.tr, by rw [hm]; exact h.closed, h.sorted,
    fun n hn => Nat.le_trans (h.le n hn) hf⟩

theorem writeFrame_minv {env : Env} {cfg : WConfig} (hv : cfg.dims.Valid) (hf : cfg.dims.Room) {data : Bytes}
    {st st' : WState} {ns : List Nat} {k : Nat} (h : MInv cfg st ns) (hn : st.framesWritten + 1 < 2 ^ 32)
    (hw : writeFrame env cfg data st = .ok (st', k)) (hk : k ≠ 0) :
    ∃ ns', MInv cfg st' ns' ∧ st'.framesWritten = st.framesWritten + 1 ∧
      (ns' = ns ∨ ns' = ns ++ [st.framesWritten + 1]) := by
  rw [writeFrame_seq] at hw
  split at hw
  · cases hw; exact absurd rfl hk
  · dsimp only at hw
    obtain ⟨⟨bufs, m⟩, _, hw⟩ := Res.bind_eq_ok.1 hw
    dsimp only at hw
    obtain ⟨_, hm, hw⟩ := Res.bind_eq_ok.1 hw
    obtain ⟨fl, _, hw⟩ := Res.bind_eq_ok.1 hw
    obtain ⟨s2, h2, hw⟩ := Res.bind_eq_ok.1 hw
    simp only [Res.pure_eq, Res.ok.injEq, Prod.mk.injEq] at hw
    obtain ⟨rfl, rfl⟩ := hw
    have h0 : MInv cfg (if st.bufs.isEmpty then { st with bufs := makeBuffers cfg.dims } else st) ns := by
      split
      · exact h.mono rfl rfl rfl (Nat.le_refl _)
      · exact h
    have hfw : (if st.bufs.isEmpty then { st with bufs := makeBuffers cfg.dims } else st : WState).framesWritten =
      st.framesWritten := by split <;> rfl
    generalize (if st.bufs.isEmpty then { st with bufs := makeBuffers cfg.dims } else st) = s0 at *
    rw [hfw, u32_of_lt (n := st.framesWritten + 1) hn] at h2
    have h1 : MInv cfg { s0 with
        bufs := bufs
        bytesToFlush := u64 (s0.bytesToFlush + m)
        framesWritten := st.framesWritten + 1 } ns :=
      h0.mono rfl rfl rfl (by show s0.framesWritten ≤ st.framesWritten + 1; omega)
    split at h2
    · exact flush_minv hv hf h1 hn h2
    · cases h2
      exact ⟨ns, h1, rfl, .inl rfl⟩

theorem writeFrames_minv {env : Env} {cfg : WConfig} (hv : cfg.dims.Valid) (hf : cfg.dims.Room) (fs : List Bytes)
    {st st' : WState} {ns : List Nat} (h : MInv cfg st ns) (hn : st.framesWritten + fs.length < 2 ^ 32)
    (hw : writeFrames env cfg fs st = .ok st') :
    ∃ ns', MInv cfg st' ns' ∧ st'.framesWritten = st.framesWritten + fs.length := by
  induction fs generalizing st ns with
  | nil => cases hw; exact ⟨ns, h, rfl⟩
  | cons f fs ih =>
    rw [writeFrames] at hw
    obtain ⟨⟨s1, k⟩, h1, hw⟩ := Res.bind_eq_ok.1 hw
    obtain ⟨_, hk, hw⟩ := Res.bind_eq_ok.1 hw
    rw [check_eq_ok] at hk
    simp only [List.length_cons] at hn
    obtain ⟨ns1, m1, f1, _⟩ := writeFrame_minv hv hf h (by omega) h1 (by simpa using hk)
    obtain ⟨ns2, m2, f2⟩ := ih m1 (by omega) hw
    exact ⟨ns2, m2, by rw [f2, f1, List.length_cons]; omega⟩

theorem minv_init (cfg : WConfig) : MInv cfg (WState.init cfg) [] :=
  ⟨init_owned cfg, by simp [WState.init], fun _ => rfl, by simp, by simp⟩

/-- The life of the metadata object of an array, on any storage. -/
theorem runArray_meta {env : Env} {cfg : WConfig} (hv : cfg.dims.Valid) (hf : cfg.dims.Room) {fs : List Bytes}
    {st : WState} (hn : fs.length < 2 ^ 32) (h : runArray env cfg fs = .ok st) :
    ∃ ns : List Nat, ns.Pairwise (· ≤ ·) ∧ (∀ n ∈ ns, n ≤ fs.length) ∧
      (about (arrayMetaPath cfg) st.trace = [] ∨
       about (arrayMetaPath cfg) st.trace = .opened (arrayMetaPath cfg) ::
        (ns.map fun n => .wrote (arrayMetaPath cfg) 0 (docFor cfg n)) ++ [.finalized (arrayMetaPath cfg)]) := by
  unfold runArray at h
  obtain ⟨s1, h1, h⟩ := Res.bind_eq_ok.1 h
  obtain ⟨ns1, m1, f1⟩ := writeFrames_minv hv hf fs (minv_init cfg) (by simpa [WState.init] using hn) h1
  have hz : (WState.init cfg).framesWritten = 0 := rfl
  rw [finalizeArray_seq] at h
  obtain ⟨s2, h2, h⟩ := Res.bind_eq_ok.1 h
  obtain ⟨s3, h3, h⟩ := Res.bind_eq_ok.1 h
  simp only [Res.pure_eq, Res.ok.injEq] at h
  obtain ⟨ns2, m2, f2, _⟩ := flush_minv hv hf (st := { s1 with finalizing := true })
    (m1.mono rfl rfl rfl (Nat.le_refl _)) (by show s1.framesWritten < _; omega) h2
  have f2' : s2.framesWritten = fs.length := by rw [f2]; show s1.framesWritten = _; omega
  refine ⟨ns2, m2.sorted, fun n hn => by have := m2.le n hn; omega, ?_⟩
  have hd : about (arrayMetaPath cfg) (s2.dataSinks.map Ev.dropped) = [] := by
    apply about_data
    intro e he
    obtain ⟨p, hp, rfl⟩ := List.mem_map.1 he
    exact m2.sinks p hp
  subst h
  have ht := m2.tr
  split at h3
  · rename_i hms
    obtain ⟨_, _, h3⟩ := Res.bind_eq_ok.1 h3
    simp only [Res.pure_eq, Res.ok.injEq] at h3
    subst h3
    right
    rw [hms, if_pos rfl] at ht
    simp only [about_append, hd, ht]
    simp [Ev.path]
  · rename_i hms
    cases h3
    left
    rw [if_neg hms] at ht
    rw [about_append, hd, ht]
    rfl

/-! ### What a stream does to its own documents -/

/-- The documents written under `key` during a session, in order. -/
def docsFor (w : World) (s : Settings) (cfg : WConfig) (n : Nat) (key : Text) : List Bytes :=
  (if (baseDoc cfg n).1 = key then [utf8 ((baseDoc cfg n).2.dump 0)] else []) ++
  (if (groupDoc cfg n).1 = key then [utf8 ((groupDoc cfg n).2.dump 0)] else []) ++
  (if externalKey cfg.version = key then (externalDoc w s).toList else []) ++
  (if (groupDoc cfg n).1 = key then [utf8 ((groupDoc cfg n).2.dump 0)] else [])

/-- Those of the documents that the storage keeps. -/
def kept (env : Env) (p : Text) (ds : List Bytes) : List Bytes := ds.filter fun d => env.write p 0 d = .stored

theorem kept_append (env : Env) (p : Text) (a b : List Bytes) : kept env p (a ++ b) = kept env p a ++ kept env p b :=
  List.filter_append ..

theorem about_writeDoc {env : Env} {cfg : WConfig} {key key' : Text} {doc : Bytes} {evs : List Ev}
    (h : writeDoc env (metaSinkPath cfg key') doc = .ok evs) :
    about (metaSinkPath cfg key) evs = (kept env (metaSinkPath cfg key) (if key' = key then [doc] else [])).map
      (Ev.wrote (metaSinkPath cfg key) 0) := by
  by_cases hk : key' = key
  · subst hk
    rw [if_pos rfl]
    unfold writeDoc at h
    unfold kept
    split at h
    · rename_i hs; cases h; simp [Ev.path, hs]
    · rename_i hs; cases h; simp [hs]
    · simp at h
    · simp at h
  · rw [if_neg hk]
    have : about (metaSinkPath cfg key) evs = [] := by
      apply about_nil_of
      intro e he hp
      rw [writeDoc_paths h e he] at hp
      exact hk (metaSinkPath_inj hp)
    rw [this]; rfl

theorem about_map_keys {cfg : WConfig} {f : Text → Ev} (hf : ∀ p, (f p).path = p) {key : Text}
    {ks : List Text} (hn : ks.Nodup) (hk : key ∈ ks) :
    about (metaSinkPath cfg key) ((ks.map (metaSinkPath cfg)).map f) = [f (metaSinkPath cfg key)] := by
  induction ks with
  | nil => simp at hk
  | cons k ks ih =>
    rw [List.nodup_cons] at hn
    simp only [List.map_cons]
    rcases List.mem_cons.1 hk with rfl | hk
    · rw [show about (metaSinkPath cfg key) (f (metaSinkPath cfg key) :: (ks.map (metaSinkPath cfg)).map f) =
        f (metaSinkPath cfg key) :: about (metaSinkPath cfg key) ((ks.map (metaSinkPath cfg)).map f) from
        List.filter_cons_of_pos (by simp [hf])]
      congr 1
      apply about_nil_of
      intro e he hp
      obtain ⟨p, hp', rfl⟩ := List.mem_map.1 he
      obtain ⟨k, hk', rfl⟩ := List.mem_map.1 hp'
      rw [hf] at hp
      rw [metaSinkPath_inj hp] at hk'
      exact hn.1 hk'
    · rw [show about (metaSinkPath cfg key) (f (metaSinkPath cfg k) :: (ks.map (metaSinkPath cfg)).map f) =
        about (metaSinkPath cfg key) ((ks.map (metaSinkPath cfg)).map f) from
        List.filter_cons_of_neg (by
          simp only [hf, decide_eq_true_eq]
          intro he
          rw [metaSinkPath_inj he] at hn
          exact hn.1 hk)]
      exact ih hn.2 hk

theorem metaKeys_distinct (v : Version) : (metaKeys v).Nodup := by cases v <;> decide

/-- **The stream-level documents of a session.** -/
theorem session_docs {w : World} {env : Env} {fuel : Nat} {s : Settings} {calls : List (List Bytes)}
    {cfg : WConfig} {cfgs : List WConfig} {st : SState} {ns : List Nat} {tr : List Ev}
    (hcm : commitSettings s = .ok cfg) (hl : levelConfigs fuel s.multiscale cfg = some (.ok cfgs))
    (hF : 0 < bytesOfFrame cfg.dims) (hf : ∀ c ∈ calls, ∀ f ∈ c, f.length = bytesOfFrame cfg.dims)
    (h : runStream w env fuel s (calls.map List.flatten) = some (.ok (st, ns, tr))) {key : Text}
    (hk : key ∈ metaKeys cfg.version) :
    about (metaSinkPath cfg key) tr = .opened (metaSinkPath cfg key) ::
      (kept env (metaSinkPath cfg key) (docsFor w s cfg cfgs.length key)).map (Ev.wrote (metaSinkPath cfg key) 0) ++
      [.finalized (metaSinkPath cfg key)] := by
  unfold runStream at h
  split at h
  · simp at h
  · simp at h
  · simp at h
  · rename_i st0 h0
    obtain ⟨cfg', cfgs', hc⟩ := createStream_ok h0
    have e1 := hc.commit
    rw [hcm] at e1
    cases e1
    have e2 := hc.levels
    rw [hl] at e2
    cases e2
    simp only [Option.some.injEq] at h
    obtain ⟨⟨st1, ns1⟩, h1, h⟩ := Res.bind_eq_ok.1 h
    dsimp only at h
    obtain ⟨tr1, h2, h⟩ := Res.bind_eq_ok.1 h
    simp only [Res.pure_eq, Res.ok.injEq, Prod.mk.injEq] at h
    obtain ⟨rfl, rfl, rfl⟩ := h
    obtain ⟨h3, h4⟩ := appends_aligned_ok hF calls hf hc.aligned h1
    have hk' := foldFrames_keeps h3
    have ht := foldFrames_trace h3 hc.traceOk
    unfold destroyStream at h2
    obtain ⟨d1, g1, h2⟩ := Res.bind_eq_ok.1 h2
    obtain ⟨d2, g2, h2⟩ := Res.bind_eq_ok.1 h2
    obtain ⟨d3, g3, h2⟩ := Res.bind_eq_ok.1 h2
    simp only [Res.pure_eq, Res.ok.injEq] at h2
    subst h2
    have hcfg : st1.cfg = cfg := hk'.cfg.trans hc.scfg
    have hcfgs : st1.levels.map (·.cfg) = cfgs := hk'.cfgs.trans hc.cfgsEq
    have hlen : st1.levels.length = cfgs.length := by rw [← hcfgs, List.length_map]
    rw [hcfg, hlen] at g1
    rw [hcfg] at g2
    obtain ⟨f1, _⟩ := finalizeLevels_spec g3 ht.distinct ht.sinks
    obtain ⟨evs, t1, t2, _⟩ := ht.tr
    have hmem : ∀ lv ∈ st1.levels, lv.cfg ∈ cfgs := fun lv hlv => by
      rw [← hcfgs]; exact List.mem_map_of_mem hlv
    have hno : ∀ es : List Ev, (∀ e ∈ es, ∃ lv ∈ st1.levels, Owned lv.cfg e.path) →
        about (metaSinkPath cfg key) es = [] := by
      intro es hes
      apply about_nil_of
      intro e he hep
      obtain ⟨lv, hlv, ho⟩ := hes e he
      obtain ⟨i, hi⟩ := List.mem_iff_getElem?.1 (hmem lv hlv)
      exact owned_ne_sink (levelConfigs_inherits hl hi).1.same hk ho hep.symm
    obtain ⟨c1, c2, c3, q1, q2, q3, q4⟩ := hc.docs
    have a3 : about (metaSinkPath cfg key) c3 = (kept env (metaSinkPath cfg key)
        (if externalKey cfg.version = key then (externalDoc w s).toList else [])).map
        (Ev.wrote (metaSinkPath cfg key) 0) := by
      cases hx : externalDoc w s with
      | none => rw [hx] at q4; dsimp only at q4; rw [q4]; simp [kept]
      | some doc => rw [hx] at q4; dsimp only at q4; exact about_writeDoc q4
    rw [t1, q1]
    simp only [about_append, hno _ t2, hno _ f1, finalizeSinks_paths g2, about_writeDoc q2, about_writeDoc q3, a3,
      about_writeDoc g1, about_map_keys (f := Ev.opened) (fun _ => rfl) (metaKeys_distinct _) hk,
      about_map_keys (f := Ev.finalized) (fun _ => rfl) (metaKeys_distinct _) hk, docsFor, kept_append]
    simp

theorem docKeys_ne (cfg : WConfig) (n : Nat) : (baseDoc cfg n).1 ≠ (groupDoc cfg n).1 ∧
    (baseDoc cfg n).1 ≠ externalKey cfg.version ∧ (groupDoc cfg n).1 ≠ externalKey cfg.version := by
  unfold baseDoc groupDoc externalKey
  cases cfg.version <;> (dsimp only; decide)

/-- All documents written under one key of a session are equal. -/
theorem docsFor_eq (w : World) (s : Settings) (cfg : WConfig) (n : Nat) (key : Text) :
    ∃ d k, docsFor w s cfg n key = List.replicate k d := by
  obtain ⟨h1, h2, h3⟩ := docKeys_ne cfg n
  unfold docsFor
  generalize utf8 ((baseDoc cfg n).2.dump 0) = db
  generalize utf8 ((groupDoc cfg n).2.dump 0) = dg
  generalize (baseDoc cfg n).1 = kb at *
  generalize (groupDoc cfg n).1 = kg at *
  generalize externalKey cfg.version = ke at *
  by_cases e1 : kb = key
  · have e2 : kg ≠ key := fun e => h1 (e1.trans e.symm)
    have e3 : ke ≠ key := fun e => h2 (e1.trans e.symm)
    simp only [if_pos e1, if_neg e2, if_neg e3]
    exact ⟨db, 1, rfl⟩
  · by_cases e2 : kg = key
    · have e3 : ke ≠ key := fun e => h3 (e2.trans e.symm)
      simp only [if_neg e1, if_pos e2, if_neg e3]
      exact ⟨dg, 2, rfl⟩
    · simp only [if_neg e1, if_neg e2]
      split
      · cases externalDoc w s with
        | none => exact ⟨[], 0, rfl⟩
        | some d => exact ⟨d, 1, rfl⟩
      · exact ⟨[], 0, rfl⟩

/-! ### Rewriting in place -/

theorem lastDocument_filter (p : Text) (tr : List Ev) : lastDocument p tr = lastDocument p (about p tr) := by
  unfold lastDocument
  generalize (none : Option Bytes) = cur
  induction tr generalizing cur with
  | nil => rfl
  | cons e es ih =>
    by_cases h : e.path = p
    · rw [show about p (e :: es) = e :: about p es from List.filter_cons_of_pos (by simpa using h)]
      simp only [List.foldl_cons]
      exact ih _
    · rw [show about p (e :: es) = about p es from List.filter_cons_of_neg (by simpa using h)]
      simp only [List.foldl_cons]
      rw [show stepDoc p cur e = cur from if_neg h]
      exact ih _

theorem rewrites_fold {p : Text} (ds : List Bytes) (hs : ds.Pairwise (fun a b => a.length ≤ b.length)) (b : Bytes)
    (hb : ∀ d ∈ ds, b.length ≤ d.length) :
    (ds.map (Ev.wrote p 0)).foldl (stepFile p) (some b) = some ((b :: ds).getLast (by simp)) ∧
    (ds.map (Ev.wrote p 0)).foldl (stepDoc p) (some b) = some ((b :: ds).getLast (by simp)) := by
  induction ds generalizing b with
  | nil => exact ⟨rfl, rfl⟩
  | cons d ds ih =>
    rw [List.pairwise_cons] at hs
    have h1 : stepFile p (some b) (.wrote p 0 d) = some d := by
      have hbl := hb d (by simp)
      unfold stepFile
      simp only [Ev.path, ne_eq, not_true, if_false, Option.map_some]
      split
      · rename_i he
        simp at he
        subst he
        simp at hbl
        rw [hbl]
      · rw [pwrite_zero_of_le hbl]
    have h2 : stepDoc p (some b) (.wrote p 0 d) = some d := if_pos rfl
    simp only [List.map_cons, List.foldl_cons, h1, h2]
    obtain ⟨i1, i2⟩ := ih hs.2 d hs.1
    exact ⟨by rw [i1]; simp, by rw [i2]; simp⟩

/-- Histories in which an object is created once and then rewritten from the start with documents of
non-decreasing length. -/
def InPlace (p : Text) (l : List Ev) : Prop :=
  l = [] ∨ ∃ ds : List Bytes, ds.Pairwise (fun a b => a.length ≤ b.length) ∧
    (l = .opened p :: ds.map (Ev.wrote p 0) ∨ l = .opened p :: ds.map (Ev.wrote p 0) ++ [.finalized p])

theorem InPlace.last {p : Text} {l : List Ev} (h : InPlace p l) : fileAfter p l = lastDocument p l := by
  rcases h with rfl | ⟨ds, hs, h⟩
  · rfl
  · obtain ⟨i1, i2⟩ := rewrites_fold (p := p) ds hs [] (by simp)
    have o1 : stepFile p none (.opened p) = some [] := by simp [stepFile, Ev.path]
    have o2 : stepDoc p none (.opened p) = some [] := if_pos rfl
    unfold fileAfter lastDocument
    rcases h with rfl | rfl
    · simp only [List.foldl_cons, o1, o2, i1, i2]
    · simp only [List.foldl_cons, List.cons_append, List.foldl_append, o1, o2, i1, i2, List.foldl_nil]
      rw [show stepDoc p (some (([] :: ds).getLast (by simp))) (.finalized p) = some (([] :: ds).getLast (by simp)) from
        if_pos rfl]
      simp [stepFile, Ev.path]

theorem InPlace.prefix {p : Text} {l l' : List Ev} (h : InPlace p l) (hp : l' <+: l) : InPlace p l' := by
  rcases h with rfl | ⟨ds, hs, h⟩
  · left; exact List.prefix_nil.1 hp
  · have key : ∀ q, q <+: (.opened p :: ds.map (Ev.wrote p 0)) → InPlace p q := by
      intro q hq
      cases q with
      | nil => exact .inl rfl
      | cons e es =>
        obtain ⟨he, hq'⟩ := List.cons_prefix_cons.1 hq
        obtain ⟨t, ht1, ht2⟩ := List.prefix_map_iff.1 hq'
        subst he ht2
        exact .inr ⟨t, hs.sublist ht1.sublist, .inl rfl⟩
    rcases h with rfl | rfl
    · exact key _ hp
    · rcases List.prefix_concat_iff.1 hp with h | h
      · exact .inr ⟨ds, hs, .inr h⟩
      · exact key _ h

/-- At every instant the object holds exactly the last document. -/
theorem inPlace_always {p : Text} {tr tr1 : List Ev} (h : InPlace p (about p tr)) (h1 : tr1 <+: tr) :
    fileAfter p tr1 = lastDocument p tr1 := by
  have := (h.prefix (h1.filter (fun e => e.path = p))).last
  rw [fileAfter_filter, lastDocument_filter]
  exact this

end AZ
