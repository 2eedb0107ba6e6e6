import Verif.Lemmas.Accepted
import Verif.Lemmas.ReadV2
import Verif.Lemmas.StoreAt
import Verif.Spec.Settings

set_option linter.unusedSimpArgs false

/-! # Complete V2 sessions on working storage -/

namespace AZ
open Spec

/-- Storage and compression that never fail during a session with settings `s`: sinks can be created, writes store their
bytes, closing succeeds, Blosc with the configured parameters returns without an error code. -/
structure StorageOk (env : Env) (s : Settings) : Prop where
  sinks : ∀ r, env.makeSinks r = true
  metaSink : ∀ p, env.makeMetaSink p = true
  write : ∀ p o d, env.write p o d = .stored
  finalize : ∀ p, env.finalize p = true
  compress : ∀ q, s.compression = some q → ∀ n b,
    (env.compress ⟨codecName q.codec, q.level, q.shuffle⟩ n b).isSome = true

/-- Settings `s` are accepted by `ZarrStream_create` in world `w`: validation succeeds, the store can be
created, the pyramid is finite (`cfgs` are its levels, `cfg` the first), and the sizes stay within the
32/64-bit limits of the code (`ArrayDims.Fits`; with multiscale also frames below 2 GiB and not `int8`,
whose downscaling converts out-of-range values). -/
structure Setup (w : World) (fuel : Nat) (s : Settings) (cfg : WConfig) (cfgs : List WConfig) : Prop where
  valid : validateSettings w (some s) = .ok true
  commit : commitSettings s = .ok cfg
  store : w.storeOk cfg.storePath = true
  levels : levelConfigs fuel s.multiscale cfg = some (.ok cfgs)
  fits : cfg.dims.Fits
  multi : s.multiscale = true → cfg.dims.frameBytes < 2 ^ 31 - 1 ∧ cfg.dims.dtype ≠ .i8

/-- The same without the exception of `int8`. -/
structure Setup0 (w : World) (fuel : Nat) (s : Settings) (cfg : WConfig) (cfgs : List WConfig) : Prop where
  valid : validateSettings w (some s) = .ok true
  commit : commitSettings s = .ok cfg
  store : w.storeOk cfg.storePath = true
  levels : levelConfigs fuel s.multiscale cfg = some (.ok cfgs)
  fits : cfg.dims.Fits
  multi : s.multiscale = true → cfg.dims.frameBytes < 2 ^ 31 - 1

theorem Setup.base {w : World} {fuel : Nat} {s : Settings} {cfg : WConfig} {cfgs : List WConfig}
    (h : Setup w fuel s cfg cfgs) : Setup0 w fuel s cfg cfgs :=
  ⟨h.valid, h.commit, h.store, h.levels, h.fits, fun hm => (h.multi hm).1⟩

theorem StorageOk.works {env : Env} {s : Settings} (h : StorageOk env s) : StorageWorks env :=
  ⟨h.metaSink, h.write, h.finalize⟩

/-- The compression parameters of every level are those of the settings. -/
theorem Setup0.compression {w : World} {fuel : Nat} {s : Settings} {cfg : WConfig} {cfgs : List WConfig}
    (h : Setup0 w fuel s cfg cfgs) {c : WConfig} (hc : c ∈ cfgs) :
    c.compression = s.compression.map fun q => ⟨codecName q.codec, q.level, q.shuffle⟩ := by
  obtain ⟨i, hi⟩ := List.mem_iff_getElem?.1 hc
  rw [← (levelConfigs_inherits h.levels hi).1.compression, (commit_fields h.commit).2.2.2.1]

theorem Setup.compression {w : World} {fuel : Nat} {s : Settings} {cfg : WConfig} {cfgs : List WConfig}
    (h : Setup w fuel s cfg cfgs) {c : WConfig} (hc : c ∈ cfgs) :
    c.compression = s.compression.map fun q => ⟨codecName q.codec, q.level, q.shuffle⟩ := h.base.compression hc

theorem StorageOk.compressed0 {env : Env} {w : World} {fuel : Nat} {s : Settings} {cfg : WConfig} {cfgs : List WConfig}
    (hE : StorageOk env s) (h : Setup0 w fuel s cfg cfgs) {c : WConfig} (hc : c ∈ cfgs) {q : BloscParams}
    (hq : c.compression = some q) (n : Nat) (b : Bytes) : (env.compress q n b).isSome = true := by
  rw [h.compression hc] at hq
  cases hs : s.compression with
  | none => rw [hs] at hq; cases hq
  | some r =>
    rw [hs] at hq
    simp only [Option.map_some, Option.some.injEq] at hq
    rw [← hq]
    exact hE.compress r hs n b

theorem StorageOk.compressed {env : Env} {w : World} {fuel : Nat} {s : Settings} {cfg : WConfig} {cfgs : List WConfig}
    (hE : StorageOk env s) (h : Setup w fuel s cfg cfgs) {c : WConfig} (hc : c ∈ cfgs) {q : BloscParams}
    (hq : c.compression = some q) (n : Nat) (b : Bytes) : (env.compress q n b).isSome = true :=
  hE.compressed0 h.base hc hq n b

theorem StorageOk.good0 {env : Env} {w : World} {fuel : Nat} {s : Settings} {cfg : WConfig} {cfgs : List WConfig}
    (hE : StorageOk env s) (h : Setup0 w fuel s cfg cfgs) {c : WConfig} (hc : c ∈ cfgs) : GoodEnv env c :=
  ⟨hE.sinks, hE.metaSink, hE.write, hE.finalize, fun _ hq b _ => hE.compressed0 h hc hq _ b⟩

theorem StorageOk.good {env : Env} {w : World} {fuel : Nat} {s : Settings} {cfg : WConfig} {cfgs : List WConfig}
    (hE : StorageOk env s) (h : Setup w fuel s cfg cfgs) {c : WConfig} (hc : c ∈ cfgs) : GoodEnv env c :=
  ⟨hE.sinks, hE.metaSink, hE.write, hE.finalize, fun _ hq b _ => hE.compressed h hc hq _ b⟩

namespace Setup0

variable {w : World} {fuel : Nat} {s : Settings} {cfg : WConfig} {cfgs : List WConfig}

theorem dimsValid (h : Setup0 w fuel s cfg cfgs) : cfg.dims.Valid := (accepted_valid h.valid h.commit).1

/-- Every level has valid dimensions within the limits. -/
theorem levelDims (h : Setup0 w fuel s cfg cfgs) : (∀ c ∈ cfgs, c.dims.Valid ∧ c.dims.Fits) ∧
    PyrOk cfg.dims.dtype cfgs.tail cfg.dims.width.arraySize cfg.dims.height.arraySize := by
  have hl := h.levels
  obtain ⟨v1, v2, v3, _⟩ := accepted_valid h.valid h.commit
  unfold levelConfigs at hl
  split at hl
  · rename_i hm
    split at hl
    · simp at hl
    · simp at hl
    · simp at hl
    · rename_i rest hr
      simp only [Option.some.injEq, Res.ok.injEq] at hl
      subst hl
      have hg : GoodDims cfg.dims := ⟨v1, h.fits, by rw [v2]; decide, by rw [v3]; decide, h.multi hm⟩
      obtain ⟨g1, g2⟩ := pyramidFrom_good hr hg
      refine ⟨?_, g2⟩
      intro c hc
      rcases List.mem_cons.1 hc with rfl | hc
      · exact ⟨v1, h.fits⟩
      · exact ⟨(g1 c hc).valid, (g1 c hc).fits⟩
  · simp only [Option.some.injEq, Res.ok.injEq] at hl
    subst hl
    refine ⟨?_, trivial⟩
    intro c hc
    rw [List.mem_singleton] at hc
    rw [hc]
    exact ⟨v1, h.fits⟩

theorem levelsWork {N : Nat} (h : Setup0 w fuel s cfg cfgs) {env : Env} (hw : ∀ c ∈ cfgs, WriterWorks N env c) :
    LevelsWork0 N env cfg cfgs := by
  have hv := h.dimsValid
  have he := ArrayDims.bytesOfFrame_eq hv h.fits
  refine ⟨hw, ?_, ?_, h.levelDims.2⟩
  · rw [he]; exact ArrayDims.frameBytes_pos hv h.fits
  · rw [he]
    unfold ArrayDims.frameBytes
    rw [Nat.mul_comm cfg.dims.height.arraySize]

theorem versionV2 (h : Setup0 w fuel s cfg cfgs) (hV : s.version = 2) : ∀ c ∈ cfgs, c.version = .v2 := by
  intro c hc
  obtain ⟨i, hi⟩ := List.mem_iff_getElem?.1 hc
  rw [← (levelConfigs_inherits h.levels hi).1.same.version, (commit_fields h.commit).2.2.2.2, if_pos hV]

end Setup0

namespace Setup

variable {w : World} {fuel : Nat} {s : Settings} {cfg : WConfig} {cfgs : List WConfig}

theorem dimsValid (h : Setup w fuel s cfg cfgs) : cfg.dims.Valid := h.base.dimsValid

theorem levelDims (h : Setup w fuel s cfg cfgs) : (∀ c ∈ cfgs, c.dims.Valid ∧ c.dims.Fits) ∧
    PyrOk cfg.dims.dtype cfgs.tail cfg.dims.width.arraySize cfg.dims.height.arraySize := h.base.levelDims

theorem levelsWork {N : Nat} (h : Setup w fuel s cfg cfgs) {env : Env} (hw : ∀ c ∈ cfgs, WriterWorks N env c) :
    LevelsWork N env s.multiscale cfg cfgs := ⟨h.base.levelsWork hw, fun hm => (h.multi hm).2⟩

theorem versionV2 (h : Setup w fuel s cfg cfgs) (hV : s.version = 2) : ∀ c ∈ cfgs, c.version = .v2 := h.base.versionV2 hV

end Setup

theorem writerWorks_v2 {env : Env} {c : WConfig} (hE : GoodEnv env c) (hV : c.version = .v2)
    (hv : c.dims.Valid) (hf : c.dims.Fits) : WriterWorks (2 ^ 32) env c := by
  intro frames hn hd
  rw [ArrayDims.bytesOfFrame_eq hv hf] at hd
  obtain ⟨st, h1, h2⟩ := writeFrames_inv2 hE hV hv hf frames (n := 0) (by omega) hd (inv2_init env hV)
  obtain ⟨stf, h3, _⟩ := finalizeArray_v2 hE hV hv hf (by omega) h2
  exact ⟨st, h1, h2.errs, stf, h3⟩

/-- What a successful session of whole frames leaves in a V2 store. -/
structure SessionV2 (env : Env) (cfg : WConfig) (cfgs : List WConfig) (frames : List Bytes) (tr : List Ev) : Prop where
  sizes : ∀ (i : Nat) (c : WConfig), cfgs[i]? = some c → ∀ f ∈ framesOfLevel cfg i frames, f.length = c.dims.frameBytes
  level : ∀ (i : Nat) (c : WConfig), cfgs[i]? = some c → ∀ p, Owned c p → about p tr =
    about p (runEventsV2 env c (framesOfLevel cfg i frames).flatten (framesOfLevel cfg i frames).length)
  rest : ∀ e ∈ tr, (∃ c ∈ cfgs, Owned c e.path) ∨ ∃ key ∈ metaKeys cfg.version, e.path = metaSinkPath cfg key

theorem framesOfLevel_sizes0 {w : World} {fuel : Nat} {s : Settings} {cfg : WConfig} {cfgs : List WConfig}
    (h : Setup0 w fuel s cfg cfgs) {frames : List Bytes} (hf : ∀ f ∈ frames, f.length = cfg.dims.frameBytes)
    {i : Nat} {c : WConfig} (hc : cfgs[i]? = some c) :
    ∀ f ∈ framesOfLevel cfg i frames, f.length = c.dims.frameBytes := by
  obtain ⟨rest, hr⟩ := levelConfigs_head h.levels
  obtain ⟨d1, d2⟩ := h.levelDims
  have hcd := d1 c (List.mem_of_getElem? hc)
  cases i with
  | zero =>
    rw [hr] at hc
    simp at hc
    rw [← hc]
    exact hf
  | succ i =>
    rw [hr] at hc d2
    rw [← ArrayDims.bytesOfFrame_eq hcd.1 hcd.2]
    exact levelFrames_sizes d2 hc

theorem framesOfLevel_sizes {w : World} {fuel : Nat} {s : Settings} {cfg : WConfig} {cfgs : List WConfig}
    (h : Setup w fuel s cfg cfgs) {frames : List Bytes} (hf : ∀ f ∈ frames, f.length = cfg.dims.frameBytes)
    {i : Nat} {c : WConfig} (hc : cfgs[i]? = some c) :
    ∀ f ∈ framesOfLevel cfg i frames, f.length = c.dims.frameBytes := framesOfLevel_sizes0 h.base hf hc

theorem session_v2_0 {w : World} {env : Env} {fuel : Nat} {s : Settings} {cfg : WConfig} {cfgs : List WConfig}
    (h : Setup0 w fuel s cfg cfgs) (hE : StorageOk env s) (hV : s.version = 2) {calls : List (List Bytes)}
    (hsc : AllScale s.multiscale cfg calls.flatten) (hn : calls.flatten.length < 2 ^ 32) (hf : ∀ c ∈ calls, ∀ f ∈ c, f.length = cfg.dims.frameBytes) :
    ∃ st tr, runStream w env fuel s (calls.map List.flatten) =
      some (.ok (st, calls.map (fun c => c.flatten.length), tr)) ∧ st.error = [] ∧
      SessionV2 env cfg cfgs calls.flatten tr := by
  have hv := h.dimsValid
  obtain ⟨d1, d2⟩ := h.levelDims
  have hF := ArrayDims.bytesOfFrame_eq hv h.fits
  obtain ⟨st, tr, h1, h2, h3⟩ := session_works0 hE.works h.valid h.commit h.store h.levels
    (h.levelsWork fun c hc => writerWorks_v2 (hE.good0 h hc) (h.versionV2 hV c hc) (d1 c hc).1 (d1 c hc).2) hsc hn
    (by rw [hF]; exact hf)
  have hff : ∀ f ∈ calls.flatten, f.length = cfg.dims.frameBytes := by
    intro f hfm
    obtain ⟨c, hcm, hfc⟩ := List.mem_flatten.1 hfm
    exact hf c hcm f hfc
  refine ⟨st, tr, h1, h3, fun i c hc => framesOfLevel_sizes0 h hff hc, ?_, h2.rest⟩
  intro i c hc p hp
  obtain ⟨stf, g1, g2⟩ := h2.level i c hc
  have hm := List.mem_of_getElem? hc
  have hlen : (framesOfLevel cfg i calls.flatten).length < 2 ^ 32 := by
    unfold framesOfLevel
    rw [levelFrames_length]
    exact Nat.lt_of_le_of_lt (Nat.div_le_self _ _) hn
  obtain ⟨stf', k1, k2, k3⟩ := runArray_v2 (hE.good0 h hm) (h.versionV2 hV c hm) (d1 c hm).1 (d1 c hm).2
    (framesOfLevel cfg i calls.flatten) hlen (framesOfLevel_sizes0 h hff hc)
  rw [g1] at k1
  cases k1
  rw [g2 p hp, k3]

theorem Setup.allScale {w : World} {fuel : Nat} {s : Settings} {cfg : WConfig} {cfgs : List WConfig}
    (h : Setup w fuel s cfg cfgs) (fs : List Bytes) : AllScale s.multiscale cfg fs := fun hm _ _ => scales_of (h.multi hm).2

theorem session_v2 {w : World} {env : Env} {fuel : Nat} {s : Settings} {cfg : WConfig} {cfgs : List WConfig}
    (h : Setup w fuel s cfg cfgs) (hE : StorageOk env s) (hV : s.version = 2) {calls : List (List Bytes)}
    (hn : calls.flatten.length < 2 ^ 32) (hf : ∀ c ∈ calls, ∀ f ∈ c, f.length = cfg.dims.frameBytes) :
    ∃ st tr, runStream w env fuel s (calls.map List.flatten) =
      some (.ok (st, calls.map (fun c => c.flatten.length), tr)) ∧ st.error = [] ∧
      SessionV2 env cfg cfgs calls.flatten tr :=
  session_v2_0 h.base hE hV (h.allScale _) hn hf

/-- The store lies in directory `root`: the trimmed store path is `root`, possibly with a `file://`
scheme. -/
def StoredAt (s : Settings) (root : Text) : Prop :=
  s.s3 = none ∧ ∃ p, s.storePath = some p ∧ (trim p = "file://".toList ++ root ∨
    trim p = root ∧ "file:/".toList.isPrefixOf root = false)

/-- Nothing of an earlier dataset can be seen under `root`: either the store path is spelled without a
scheme, so that creating the stream removes the old store, or there are no files. -/
def Fresh (w : World) (s : Settings) (root : Text) : Prop :=
  (∃ p, s.storePath = some p ∧ trim p = root) ∨ ∀ q, w.files (root ++ '/' :: q) = none

theorem StoredAt.storeAt {s : Settings} {root : Text} {cfg c : WConfig} (h : StoredAt s root)
    (hc : commitSettings s = .ok cfg) (hs : SameStore cfg c) : StoreAt c root := by
  obtain ⟨h1, p, h2, h3⟩ := h
  obtain ⟨_, k2, k3, _⟩ := commit_fields hc
  refine ⟨?_, ?_⟩
  · rw [← hs.bucket, k2, h1]; rfl
  · rw [← hs.store, k3, h2]; exact h3

theorem fileInStore_fresh {w : World} {s : Settings} {root : Text} {cfg : WConfig} (hc : commitSettings s = .ok cfg)
    (hf : Fresh w s root) (q : Text) (tr : List Ev) :
    fileInStore w cfg (root ++ '/' :: q) tr = fileAfter (root ++ '/' :: q) tr := by
  obtain ⟨_, _, k3, _⟩ := commit_fields hc
  have : (if (cfg.storePath ++ ['/']).isPrefixOf (root ++ '/' :: q) then none
      else w.files (root ++ '/' :: q)) = none := by
    rcases hf with ⟨p, h1, h2⟩ | h
    · rw [if_pos]
      rw [k3, h1]
      dsimp only [Option.getD]
      rw [h2, List.isPrefixOf_iff_prefix]
      exact ⟨q, by simp⟩
    · split
      · rfl
      · exact h q
  unfold fileInStore fileAfter
  dsimp only
  rw [this]

theorem fileAfter_about {p : Text} {a b : List Ev} (h : about p a = about p b) : fileAfter p a = fileAfter p b := by
  rw [fileAfter_filter, fileAfter_filter p b]
  exact congrArg (fileAfter p) h

end AZ
