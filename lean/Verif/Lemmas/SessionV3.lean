import Verif.Lemmas.SessionV2
import Verif.Lemmas.FilesV3

set_option linter.unusedSimpArgs false

/-! # Complete V3 sessions on working storage -/

namespace AZ
open Spec

theorem fitsV3_down {D D' : ArrayDims} (hv : D.Valid) (hf : D.Fits) (h3 : D.FitsV3) (h : DownDims D D') :
    D'.FitsV3 := by
  have hp := posDim_of hv hf
  have hall : List.Forall₂ DownDim D.toList D'.toList := by
    unfold ArrayDims.toList
    exact .cons h.append (forall₂_append h.inner (.cons h.height (.cons h.width .nil)))
  have hsz : ∀ d ∈ D.toList, 0 < d.chunkSize ∧ d.arraySize < 2 ^ 32 := by
    intro d hd
    rcases List.mem_cons.1 hd with rfl | hd
    · exact ⟨hv.append_chunk, h3.append_array⟩
    · have hq := hp d hd
      exact ⟨hq.chunk, by have := hq.chunk; have := hq.fits; omega⟩
  have hk : prod (kShape D'.toList) ≤ prod (kShape D.toList) := by
    unfold kShape
    exact prod_le_of_forall₂ hall fun a ha b hb => hb.shard_le (h3.pos a ha)
  have hbytes : D'.chunkBytes ≤ D.chunkBytes := by
    unfold ArrayDims.chunkBytes cShape
    rw [h.dtype]
    exact Nat.mul_le_mul_right _ (prod_le_of_forall₂ hall fun a ha b hb => hb.chunk_le)
  have hin : prod (aShape D'.inner) ≤ prod (aShape D.inner) := by
    unfold aShape
    refine prod_le_of_forall₂ h.inner fun a ha b hb => ?_
    exact ((hp a (by simp [ArrayDims.tailDims, ha])).down hb).2.1
  have happ : D'.append.shardSize ≤ D.append.shardSize :=
    h.append.shard_le (h3.pos D.append (by simp [ArrayDims.toList]))
  refine ⟨?_, ?_, lt_of_le_of_lt hk h3.slots, ?_, ?_, ?_, ?_⟩
  · intro d' hd'
    obtain ⟨d, hd, hr⟩ := forall₂_mem_right hall hd'
    exact hr.shard_pos (hsz d hd).2 (hsz d hd).1 (h3.pos d hd)
  · intro d' hd'
    obtain ⟨d, hd, hr⟩ := forall₂_mem_right h.tail hd'
    have h1 := ((hp d hd).down hr).2.2
    have h2 := hr.shard_le (h3.pos d (List.mem_cons_of_mem _ hd))
    have h4 := h3.along d hd
    omega
  · exact lt_of_le_of_lt (Nat.mul_le_mul h.append.chunk_le happ) h3.rollover
  · refine lt_of_le_of_lt (Nat.mul_le_mul ?_ happ) h3.frames
    exact Nat.mul_le_mul h.append.chunk_le hin
  · exact lt_of_le_of_lt (Nat.mul_le_mul hk (by omega)) h3.bytes
  · have ha := h.append.array h3.append_array (fun _ => hv.append_chunk)
    rw [ha]
    split
    · exact h3.append_array
    · have := h3.append_array
      rw [ceilDiv_two]; omega

/-- A property of dimensions preserved by `downsample` holds of every level. -/
theorem pyramidFrom_all {P : ArrayDims → Prop} (hP : ∀ D D', D.Valid → D.Fits → P D → DownDims D D' → P D')
    {fuel : Nat} {cfg : WConfig} {rest : List WConfig} (h : pyramidFrom fuel cfg = some (.ok rest))
    (hv : cfg.dims.Valid) (hf : cfg.dims.Fits) (h0 : P cfg.dims) : ∀ c ∈ rest, P c.dims := by
  induction fuel generalizing cfg rest with
  | zero => simp [pyramidFrom] at h
  | succ fuel ih =>
    rw [pyramidFrom] at h
    split at h
    · simp at h
    · simp at h
    · rename_i next again hd
      have hdd := downsample_dims hd
      have hn := hP _ _ hv hf h0 hdd
      split at h
      · split at h
        · simp at h
        · simp at h
        · simp at h
        · rename_i rest' hr
          simp only [Option.some.injEq, Res.ok.injEq] at h
          subst h
          intro c hc
          rcases List.mem_cons.1 hc with rfl | hc
          · exact hn
          · exact ih hr (valid_down hv hf hdd) (fits_down hv hf hdd) hn c hc
      · simp only [Option.some.injEq, Res.ok.injEq] at h
        subst h
        intro c hc
        rw [List.mem_singleton] at hc
        rw [hc]; exact hn

namespace Setup0

variable {w : World} {fuel : Nat} {s : Settings} {cfg : WConfig} {cfgs : List WConfig}

theorem levelFitsV3 (h : Setup0 w fuel s cfg cfgs) (h3 : cfg.dims.FitsV3) : ∀ c ∈ cfgs, c.dims.FitsV3 := by
  have hl := h.levels
  have hv := h.dimsValid
  unfold levelConfigs at hl
  split at hl
  · split at hl
    · simp at hl
    · simp at hl
    · simp at hl
    · rename_i rest hr
      simp only [Option.some.injEq, Res.ok.injEq] at hl
      subst hl
      intro c hc
      rcases List.mem_cons.1 hc with rfl | hc
      · exact h3
      · exact pyramidFrom_all (P := ArrayDims.FitsV3) (fun _ _ => fitsV3_down) hr hv h.fits h3 c hc
  · simp only [Option.some.injEq, Res.ok.injEq] at hl
    subst hl
    intro c hc
    rw [List.mem_singleton] at hc
    rw [hc]; exact h3

theorem versionV3 (h : Setup0 w fuel s cfg cfgs) (hV : s.version = 3) : ∀ c ∈ cfgs, c.version = .v3 := by
  intro c hc
  obtain ⟨i, hi⟩ := List.mem_iff_getElem?.1 hc
  rw [← (levelConfigs_inherits h.levels hi).1.same.version, (commit_fields h.commit).2.2.2.2,
    if_neg (by rw [hV]; decide)]

end Setup0

namespace Setup

variable {w : World} {fuel : Nat} {s : Settings} {cfg : WConfig} {cfgs : List WConfig}

theorem levelFitsV3 (h : Setup w fuel s cfg cfgs) (h3 : cfg.dims.FitsV3) : ∀ c ∈ cfgs, c.dims.FitsV3 := h.base.levelFitsV3 h3

theorem versionV3 (h : Setup w fuel s cfg cfgs) (hV : s.version = 3) : ∀ c ∈ cfgs, c.version = .v3 := h.base.versionV3 hV

end Setup

theorem writerWorks_v3 {env : Env} {c : WConfig} (hE : GoodEnv env c) (ho : SmallOverhead env)
    (hV : c.version = .v3) (hv : c.dims.Valid) (hf : c.dims.Fits) (h3 : c.dims.FitsV3) : WriterWorks (2 ^ 32) env c := by
  intro frames hn hd
  rw [ArrayDims.bytesOfFrame_eq hv hf] at hd
  obtain ⟨st, h1, h2⟩ := writeFrames_inv3 hE ho hV hv hf h3 frames (n := 0) (by omega) hd (inv3_init hV hv hf h3)
  obtain ⟨stf, h4, _⟩ := finalizeArray_v3 hE ho hV hv hf h3 (by omega) h2
  exact ⟨st, h1, h2.errs, stf, h4⟩

/-- What a successful session of whole frames leaves in a V3 store. -/
structure SessionV3 (env : Env) (cfg : WConfig) (cfgs : List WConfig) (frames : List Bytes) (tr : List Ev) : Prop where
  sizes : ∀ (i : Nat) (c : WConfig), cfgs[i]? = some c → ∀ f ∈ framesOfLevel cfg i frames, f.length = c.dims.frameBytes
  level : ∀ (i : Nat) (c : WConfig), cfgs[i]? = some c → ∀ p, Owned c p → about p tr =
    about p (runEventsV3 env c (framesOfLevel cfg i frames).flatten (framesOfLevel cfg i frames).length)
  rest : ∀ e ∈ tr, (∃ c ∈ cfgs, Owned c e.path) ∨ ∃ key ∈ metaKeys cfg.version, e.path = metaSinkPath cfg key

theorem session_v3_0 {w : World} {env : Env} {fuel : Nat} {s : Settings} {cfg : WConfig} {cfgs : List WConfig}
    (h : Setup0 w fuel s cfg cfgs) (h3 : cfg.dims.FitsV3) (hE : StorageOk env s) (ho : SmallOverhead env)
    (hV : s.version = 3) {calls : List (List Bytes)}
    (hsc : AllScale s.multiscale cfg calls.flatten) (hn : calls.flatten.length < 2 ^ 32) (hf : ∀ c ∈ calls, ∀ f ∈ c, f.length = cfg.dims.frameBytes) :
    ∃ st tr, runStream w env fuel s (calls.map List.flatten) =
      some (.ok (st, calls.map (fun c => c.flatten.length), tr)) ∧ st.error = [] ∧
      SessionV3 env cfg cfgs calls.flatten tr := by
  have hv := h.dimsValid
  obtain ⟨d1, d2⟩ := h.levelDims
  have d3 := h.levelFitsV3 h3
  have hF := ArrayDims.bytesOfFrame_eq hv h.fits
  obtain ⟨st, tr, h1, h2, h4⟩ := session_works0 hE.works h.valid h.commit h.store h.levels
    (h.levelsWork fun c hc => writerWorks_v3 (hE.good0 h hc) ho (h.versionV3 hV c hc) (d1 c hc).1 (d1 c hc).2 (d3 c hc)) hsc hn
    (by rw [hF]; exact hf)
  have hff : ∀ f ∈ calls.flatten, f.length = cfg.dims.frameBytes := by
    intro f hfm
    obtain ⟨c, hcm, hfc⟩ := List.mem_flatten.1 hfm
    exact hf c hcm f hfc
  refine ⟨st, tr, h1, h4, fun i c hc => framesOfLevel_sizes0 h hff hc, ?_, h2.rest⟩
  intro i c hc p hp
  obtain ⟨stf, g1, g2⟩ := h2.level i c hc
  have hm := List.mem_of_getElem? hc
  have hlen : (framesOfLevel cfg i calls.flatten).length < 2 ^ 32 := by
    unfold framesOfLevel
    rw [levelFrames_length]
    exact Nat.lt_of_le_of_lt (Nat.div_le_self _ _) hn
  obtain ⟨stf', k1, k2, k3⟩ := runArray_v3 (hE.good0 h hm) ho (h.versionV3 hV c hm) (d1 c hm).1 (d1 c hm).2 (d3 c hm)
    (framesOfLevel cfg i calls.flatten) hlen (framesOfLevel_sizes0 h hff hc)
  rw [g1] at k1
  cases k1
  rw [g2 p hp, k3]

theorem session_v3 {w : World} {env : Env} {fuel : Nat} {s : Settings} {cfg : WConfig} {cfgs : List WConfig}
    (h : Setup w fuel s cfg cfgs) (h3 : cfg.dims.FitsV3) (hE : StorageOk env s) (ho : SmallOverhead env)
    (hV : s.version = 3) {calls : List (List Bytes)}
    (hn : calls.flatten.length < 2 ^ 32) (hf : ∀ c ∈ calls, ∀ f ∈ c, f.length = cfg.dims.frameBytes) :
    ∃ st tr, runStream w env fuel s (calls.map List.flatten) =
      some (.ok (st, calls.map (fun c => c.flatten.length), tr)) ∧ st.error = [] ∧
      SessionV3 env cfg cfgs calls.flatten tr :=
  session_v3_0 h.base h3 hE ho hV (h.allScale _) hn hf

end AZ
