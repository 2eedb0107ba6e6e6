import Verif.Lemmas.Healthy
import Verif.Lemmas.SessionV3
import Verif.Spec.Append

set_option linter.unusedSimpArgs false

/-! # Arbitrary append calls -/

namespace AZ
open Spec

theorem pwrite_length_le {buf d : Bytes} {o : Nat} (h : o + d.length ≤ buf.length) :
    (pwrite buf o d).length = buf.length := by
  rw [pwrite_length]; omega

/-- The loop once no partial frame is pending. -/
theorem appendLoop_unsplit {env : Env} {F : Nat} (hF : 0 < F) (data : Bytes) {fuel ptr bw : Nat} {st : SState}
    (h : Healthy F st) (ho : st.offset = 0) (hp : ptr ≤ bw) (hfuel : (data.length - bw) / F + 1 ≤ fuel) :
    ∃ r, appendLoop env data fuel ptr bw st = some r ∧ r ≠ .ub ∧
      ∀ st' n, r = .ok (st', n) → Healthy F st' ∧ n = max data.length bw ∧
        st'.offset = (data.length - bw) % F ∧ st'.levels.map (·.cfg) = st.levels.map (·.cfg) := by
  induction fuel generalizing ptr bw st with
  | zero => exact absurd hfuel (by simp)
  | succ fuel ih =>
    unfold appendLoop
    by_cases hb : bw ≥ data.length
    · rw [if_pos hb]
      refine ⟨_, rfl, by simp, ?_⟩
      intro st' n he
      simp only [Res.ok.injEq, Prod.mk.injEq] at he
      rw [← he.1, ← he.2]
      refine ⟨h, by omega, ?_, rfl⟩
      have : data.length - bw = 0 := by omega
      rw [this, ho, Nat.zero_mod]
    · rw [if_neg hb]
      dsimp only
      rw [if_neg (by omega), h.buf]
      by_cases hr : data.length - bw < F
      · rw [if_pos hr, if_neg (by omega)]
        have hlen : (slice data ptr (data.length - bw)).length = data.length - bw := by
          rw [slice_length]; omega
        have hbuf : (pwrite st.buf 0 (slice data ptr (data.length - bw))).length = F := by
          rw [pwrite_length_le (by rw [hlen, h.buf]; omega), h.buf]
        unfold appendLoop
        rw [if_pos (by omega)]
        refine ⟨_, rfl, by simp, ?_⟩
        intro st' n he
        simp only [Res.ok.injEq, Prod.mk.injEq] at he
        rw [← he.1, ← he.2]
        refine ⟨⟨h.levels, h.first, hbuf, ?_⟩, by omega, ?_, rfl⟩
        · dsimp only; omega
        · dsimp only; rw [Nat.mod_eq_of_lt hr]
      · rw [if_neg hr, if_neg (by omega)]
        have hlen : (slice data ptr F).length = F := by
          rw [slice_length]; omega
        obtain ⟨a1, a2⟩ := writeLevel0_healthy (env := env) h hlen
        cases hw : writeLevel0 env st (slice data ptr F) with
        | ub => exact absurd hw a1
        | throw => exact ⟨_, rfl, by simp, by simp⟩
        | ok x =>
          obtain ⟨st2, k⟩ := x
          obtain ⟨b1, rfl⟩ := a2 _ _ hw
          dsimp only
          rw [if_neg (by omega)]
          obtain ⟨c1, c2⟩ := writeMultiscale_healthy (env := env) b1 hlen
          cases hm : writeMultiscale env st2 (slice data ptr k) with
          | ub => exact absurd hm c1
          | throw => exact ⟨_, rfl, by simp, by simp⟩
          | ok st3 =>
            dsimp only
            have e : data.length - bw = data.length - (bw + k) + k := by omega
            have hk := (writeLevel0_keeps hw).trans (writeMultiscale_keeps hm)
            obtain ⟨r, d1, d2, d3⟩ := ih (ptr := ptr + k) (bw := bw + k) (c2 _ hm) (hk.offset.trans ho) (by omega) (by
              rw [e, Nat.add_div_right _ hF] at hfuel; omega)
            refine ⟨r, d1, d2, fun st' n he => ?_⟩
            obtain ⟨e1, e2, e3, e4⟩ := d3 _ _ he
            refine ⟨e1, by omega, ?_, e4.trans hk.cfgs⟩
            rw [e3, e, Nat.add_mod_right]

/-- One append call on a healthy stream without pending error. -/
theorem append_healthy {env : Env} {F : Nat} (hF : 0 < F) (data : Bytes) {fuel : Nat} {st : SState}
    (h : Healthy F st) (he : st.error = []) (hfuel : data.length / F + 2 ≤ fuel) :
    ∃ r, append env fuel data st = some r ∧ (r = .ub ↔ Overreads F st.offset data.length) ∧
      ∀ st' n, r = .ok (st', n) → Healthy F st' ∧ n = bytesOut F st.offset data.length ∧
        st'.offset = nextPending F st.offset data.length ∧ st'.levels.map (·.cfg) = st.levels.map (·.cfg) := by
  unfold append
  rw [he]
  simp only [List.isEmpty_nil, Bool.not_true, Bool.false_eq_true, if_false]
  by_cases ho : st.offset = 0
  · obtain ⟨r, h1, h2, h3⟩ := appendLoop_unsplit (env := env) hF data (fuel := fuel) (ptr := 0) (bw := 0) h ho (by omega)
      (by rw [Nat.sub_zero]; omega)
    have hnc : ¬ Completes F st.offset data.length := by unfold Completes; omega
    refine ⟨r, h1, ⟨fun hr => absurd hr h2, fun hr => absurd hr.1 hnc⟩, fun st' n hr => ?_⟩
    obtain ⟨a, b, c, d⟩ := h3 _ _ hr
    refine ⟨a, ?_, ?_, d⟩
    · rw [bytesOut, if_neg hnc]; omega
    · rw [nextPending, if_pos ho, c, Nat.sub_zero]
  · have hoF := h.offset
    have hb := h.buf
    unfold appendLoop
    by_cases hL : data.length = 0
    · have hnc : ¬ Completes F st.offset data.length := by unfold Completes; omega
      rw [if_pos (by omega)]
      refine ⟨_, rfl, ⟨by simp, fun hr => absurd hr.1 hnc⟩, fun st' n hr => ?_⟩
      simp only [Res.ok.injEq, Prod.mk.injEq] at hr
      rw [← hr.1, ← hr.2, bytesOut, if_neg hnc, nextPending, if_neg ho, if_neg hnc]
      exact ⟨h, by omega, by omega, rfl⟩
    · rw [if_neg (by omega)]
      obtain ⟨fuel, rfl⟩ : ∃ k, fuel = k + 1 := ⟨fuel - 1, by
        clear h he hb
        generalize data.length / F = q at hfuel
        omega⟩
      dsimp only
      rw [if_pos (by omega), h.buf, Nat.sub_zero, Nat.zero_add, Nat.zero_add, if_neg (by omega)]
      by_cases hc : F ≤ st.offset + data.length
      · have hcc : Completes F st.offset data.length := ⟨by omega, by omega, hc⟩
        have hmin : min (F - st.offset) data.length = F - st.offset := by omega
        rw [hmin, if_pos (by omega), Nat.zero_add]
        by_cases hu : F > data.length
        · rw [if_pos hu]
          exact ⟨_, rfl, ⟨fun _ => ⟨hcc, hu⟩, fun _ => rfl⟩, by simp⟩
        · rw [if_neg hu]
          have hno : ¬ Overreads F st.offset data.length := fun hr => hu hr.2
          have hsl : (slice data 0 (F - st.offset)).length = F - st.offset := by
            rw [slice_length]; omega
          have hbuf : (pwrite st.buf st.offset (slice data 0 (F - st.offset))).length = F := by
            rw [pwrite_length_le (by rw [hsl, h.buf]; omega), h.buf]
          generalize hs1 : ({ st with
            buf := pwrite st.buf st.offset (slice data 0 (F - st.offset))
            offset := st.offset + (F - st.offset) } : SState) = st1
          have h1 : Healthy F st1 := by
            rw [← hs1]
            exact ⟨h.levels, h.first, hbuf, by dsimp only; omega⟩
          have hlen : (slice data 0 F).length = F := by rw [slice_length]; omega
          obtain ⟨a1, a2⟩ := writeLevel0_healthy (env := env) h1 hlen
          cases hw : writeLevel0 env st1 (slice data 0 F) with
          | ub => exact absurd hw a1
          | throw => exact ⟨_, rfl, by simp [hno], by simp⟩
          | ok x =>
            obtain ⟨st2, k⟩ := x
            obtain ⟨b1, rfl⟩ := a2 _ _ hw
            dsimp only
            rw [if_neg (by omega)]
            have h2 : Healthy k { st2 with offset := 0 } :=
              ⟨b1.levels, b1.first, b1.buf, by dsimp only; omega⟩
            obtain ⟨r, d1, d2, d3⟩ := appendLoop_unsplit (env := env) hF data (fuel := fuel)
              (ptr := k - st.offset) (bw := k - st.offset + (k - st.offset)) h2 rfl (by omega) (by
                have : (data.length - (k - st.offset + (k - st.offset))) / k ≤ data.length / k :=
                  Nat.div_le_div_right (by omega)
                omega)
            refine ⟨r, d1, ⟨fun hr => absurd hr d2, fun hr => absurd hr hno⟩, fun st' n he => ?_⟩
            obtain ⟨e1, e2, e3, e4⟩ := d3 _ _ he
            have hk := (writeLevel0_keeps hw).cfgs
            rw [← hs1] at hk
            refine ⟨e1, ?_, ?_, e4.trans hk⟩
            · rw [bytesOut, if_pos hcc, e2]; omega
            · rw [nextPending, if_neg ho, if_pos hcc, e3, Nat.two_mul]
      · have hnc : ¬ Completes F st.offset data.length := by unfold Completes; omega
        have hmin : min (F - st.offset) data.length = data.length := by omega
        rw [hmin, if_neg (by omega)]
        unfold appendLoop
        rw [if_pos (by omega)]
        have hsl : (slice data 0 data.length).length = data.length := by
          rw [slice_length]; omega
        refine ⟨_, rfl, ⟨by simp, fun hr => absurd hr.1 hnc⟩, fun st' n hr => ?_⟩
        simp only [Res.ok.injEq, Prod.mk.injEq] at hr
        rw [← hr.1, ← hr.2, bytesOut, if_neg hnc, nextPending, if_neg ho, if_neg hnc]
        refine ⟨⟨h.levels, h.first, ?_, ?_⟩, rfl, rfl, rfl⟩
        · dsimp only
          rw [pwrite_length_le (by rw [hsl, h.buf]; omega), h.buf]
        · dsimp only; omega

theorem savedOk_init (cs : List WConfig) (w h : Nat) :
    SavedOk (cs.map fun c => ⟨c, WState.init c, none⟩) w h := by
  induction cs generalizing w h with
  | nil => trivial
  | cons c cs ih => exact ⟨by simp, ih _ _⟩

theorem Setup.arrOk {w : World} {fuel : Nat} {s : Settings} {cfg : WConfig} {cfgs : List WConfig}
    (h : Setup w fuel s cfg cfgs) (h3 : s.version = 3 → cfg.dims.FitsV3) : ∀ c ∈ cfgs, ArrOk c := by
  intro c hc
  refine ⟨(h.levelDims.1 c hc).1, (h.levelDims.1 c hc).2, fun hv => ?_⟩
  by_cases hs : s.version = 3
  · exact h.levelFitsV3 (h3 hs) c hc
  · rcases (validateSettings_ok h.valid).version with h2 | h2
    · rw [h.versionV2 h2 c hc] at hv
      cases hv
    · exact absurd h2 hs

/-- A freshly created stream is healthy. -/
theorem created_healthy {w : World} {env : Env} {fuel : Nat} {s : Settings} {cfg : WConfig} {cfgs : List WConfig}
    {st : SState} (h : Setup w fuel s cfg cfgs) (h3 : s.version = 3 → cfg.dims.FitsV3)
    (hc : Created w env fuel s cfg cfgs st) : Healthy cfg.dims.frameBytes st := by
  obtain ⟨rest, hrest⟩ := levelConfigs_head h.levels
  refine ⟨?_, ?_, ?_, ?_⟩
  · intro lv hlv
    rw [hc.slevels] at hlv
    obtain ⟨c, hcm, rfl⟩ := List.mem_map.1 hlv
    exact ⟨h.arrOk h3 c hcm, .inl rfl⟩
  · refine ⟨⟨cfg, WState.init cfg, none⟩, rest.map fun c => ⟨c, WState.init c, none⟩, ?_, ?_, rfl, ?_⟩
    · rw [hc.slevels, hrest]; rfl
    · exact hc.scfg.symm
    · intro hm
      rw [hc.scfg]
      have hp := h.levelDims.2
      rw [hrest] at hp
      refine ⟨(h.multi (hc.sms.symm.trans hm)).2, ?_, savedOk_init _ _ _⟩
      simpa [List.map_map, Function.comp_def] using hp
  · rw [hc.buf, List.length_replicate, ArrayDims.bytesOfFrame_eq h.dimsValid h.fits]
  · rw [hc.offset]; omega

theorem appendFuel_enough {F : Nat} (data : Bytes) : data.length / F + 2 ≤ appendFuel data := by
  have := Nat.div_le_self data.length F
  unfold appendFuel
  omega

/-- Successful calls keep the stream healthy; the bytes kept depend on the sizes of the calls only. -/
theorem appends_healthy {env : Env} {F : Nat} (hF : 0 < F) (calls : List Bytes) {st st' : SState} {ns : List Nat}
    (h : Healthy F st) (ha : appends env calls st = .ok (st', ns)) :
    Healthy F st' ∧ st'.offset = (calls.map List.length).foldl (nextPending F) st.offset ∧ st'.levels.map (·.cfg) = st.levels.map (·.cfg) := by
  induction calls generalizing st ns with
  | nil =>
    simp only [appends, Res.ok.injEq, Prod.mk.injEq] at ha
    rw [← ha.1]
    exact ⟨h, rfl, rfl⟩
  | cons d ds ih =>
    rw [appends] at ha
    by_cases he : st.error = []
    · obtain ⟨r, h1, h2, h3⟩ := append_healthy (env := env) hF d h he (appendFuel_enough (F := F) d)
      rw [h1] at ha
      cases hr : r with
      | throw => rw [hr] at ha; simp at ha
      | ub => rw [hr] at ha; simp at ha
      | ok x =>
        obtain ⟨st1, n⟩ := x
        rw [hr] at ha
        obtain ⟨⟨s2, ns2⟩, a1, a2⟩ := Res.bind_eq_ok.1 ha
        simp only [Res.pure_eq, Res.ok.injEq, Prod.mk.injEq] at a2
        obtain ⟨b1, b2, b3, b4⟩ := h3 _ _ hr
        rw [a2.1] at a1
        obtain ⟨c1, c2, c3⟩ := ih b1 a1
        refine ⟨c1, ?_, c3.trans b4⟩
        rw [c2, b3]
        rfl
    · have : append env (appendFuel d) d st = some .throw := by
        unfold append
        rw [if_pos]
        cases hh : st.error with
        | nil => exact absurd hh he
        | cons a b => rfl
      rw [this] at ha
      simp at ha

theorem pending_whole {F : Nat} {lens : List Nat} (h : ∀ l ∈ lens, F ∣ l) : pending F lens = 0 := by
  unfold pending
  induction lens with
  | nil => rfl
  | cons l ls ih =>
    rw [List.foldl_cons]
    have : nextPending F 0 l = 0 := by
      rw [nextPending, if_pos rfl]
      exact Nat.mod_eq_zero_of_dvd (h l (by simp))
    rw [this]
    exact ih fun x hx => h x (by simp [hx])

/-! ### Whole frames followed by the beginning of a frame -/

/-- Keeps the first bytes of a frame. -/
def keepTail (tail : Bytes) (st : SState) : SState :=
  { st with buf := pwrite st.buf 0 tail, offset := tail.length }

theorem keepTail_nil {F : Nat} {st : SState} (h : Aligned F st) : keepTail [] st = st := by
  have := h.offset
  cases st
  simp [keepTail, pwrite] at *
  exact this.symm

def liftTail (n : Nat) (tail : Bytes) : Res SState → Option (Res (SState × Nat))
  | .ok st => some (.ok (keepTail tail st, n))
  | .throw => some .throw
  | .ub => some .ub

theorem appendLoop_tail {env : Env} {F : Nat} (hF : 0 < F) (frames : List Bytes) (tail : Bytes)
    (hf : ∀ f ∈ frames, f.length = F) (ht : tail.length < F) (pre : Bytes) {fuel : Nat}
    (hfuel : frames.length + 1 ≤ fuel) {st : SState} (ha : Aligned F st) :
    appendLoop env (pre ++ frames.flatten ++ tail) fuel pre.length pre.length st =
      liftTail (pre ++ frames.flatten ++ tail).length tail (foldFrames env frames st) := by
  induction frames generalizing pre fuel st with
  | nil =>
    obtain ⟨fuel, rfl⟩ : ∃ k, fuel = k + 1 := ⟨fuel - 1, by simp at hfuel; omega⟩
    unfold appendLoop
    simp only [List.flatten_nil, List.append_nil, foldFrames, liftTail, List.length_append]
    by_cases h0 : tail.length = 0
    · have : tail = [] := List.eq_nil_of_length_eq_zero h0
      subst this
      rw [if_pos (by simp), keepTail_nil ha]
      simp
    · rw [if_neg (by omega)]
      simp only [ha.offset, ha.buf]
      rw [if_neg (by omega), if_pos (by omega), if_neg (by omega)]
      unfold appendLoop
      rw [if_pos (by simp)]
      have e : pre.length + tail.length - pre.length = tail.length := by omega
      have hsl : slice (pre ++ tail) pre.length tail.length = tail := by
        unfold slice; rw [List.drop_left, List.take_length]
      rw [e, hsl]
      rfl
  | cons f fs ih =>
    have hlen := hf f (by simp)
    have hfs := fun x hx => hf x (List.mem_cons_of_mem _ hx)
    obtain ⟨fuel, rfl⟩ : ∃ k, fuel = k + 1 := ⟨fuel - 1, by simp at hfuel; omega⟩
    unfold appendLoop
    have htot : (pre ++ (f :: fs).flatten ++ tail).length = pre.length + F + fs.flatten.length + tail.length := by
      simp [hlen]; omega
    rw [if_neg (by rw [htot]; omega)]
    simp only [ha.offset, ha.buf]
    rw [if_neg (by omega), if_neg (by rw [htot]; omega), if_neg (by rw [htot]; omega)]
    have hsl : slice (pre ++ (f :: fs).flatten ++ tail) pre.length F = f := by
      unfold slice
      rw [List.append_assoc, List.drop_left, List.flatten_cons, List.append_assoc, ← hlen, List.take_left]
    rw [hsl, foldFrames]
    unfold frameStep
    cases h0 : writeLevel0 env st f with
    | throw => simp [liftTail]
    | ub => simp [liftTail]
    | ok r =>
      obtain ⟨st2, k⟩ := r
      have hk : k = F := by
        obtain ⟨l0, rest, hl, hb⟩ := ha.level0
        unfold writeLevel0 at h0
        rw [hl] at h0
        obtain ⟨⟨l0', n, evs, errs⟩, h1, h⟩ := Res.bind_eq_ok.1 h0
        simp only [Res.pure_eq, Res.ok.injEq, Prod.mk.injEq] at h
        rw [← h.2, ← hlen]
        exact writeFrame_ret (hb.trans hlen.symm) (writerStep_spec h1).2.2.1
      subst hk
      simp only [Res.bind_ok]
      rw [if_neg (by omega)]
      cases h1 : writeMultiscale env st2 f with
      | throw => simp [liftTail]
      | ub => simp [liftTail]
      | ok st3 =>
        simp only [Res.bind_ok]
        have ha3 : Aligned k st3 := ha.keeps ((writeLevel0_keeps h0).trans (writeMultiscale_keeps h1))
        have := ih hfs (pre ++ f) (fuel := fuel) (by simp at hfuel ⊢; omega) ha3
        have e : pre ++ f ++ fs.flatten ++ tail = pre ++ (f :: fs).flatten ++ tail := by simp
        rw [e] at this
        rw [← this]
        simp [hlen]

/-- One call with whole frames and the beginning of another one. -/
theorem append_tail {env : Env} {F : Nat} (hF : 0 < F) (frames : List Bytes) (tail : Bytes)
    (hf : ∀ f ∈ frames, f.length = F) (ht : tail.length < F) {st : SState} (ha : Aligned F st) (he : st.error = []) :
    append env (appendFuel (frames.flatten ++ tail)) (frames.flatten ++ tail) st =
      liftTail (frames.flatten ++ tail).length tail (foldFrames env frames st) := by
  unfold append
  rw [he]
  have := appendLoop_tail hF frames tail hf ht [] (fuel := appendFuel (frames.flatten ++ tail))
    (by
      have := flatten_length_ge hF hf
      unfold appendFuel
      rw [List.length_append]; omega) ha (env := env)
  simpa using this

theorem appends_append_ok {env : Env} (as bs : List Bytes) {st st' : SState} {ns : List Nat}
    (h : appends env (as ++ bs) st = .ok (st', ns)) :
    ∃ st1 ns1 ns2, appends env as st = .ok (st1, ns1) ∧ appends env bs st1 = .ok (st', ns2) ∧ ns = ns1 ++ ns2 := by
  induction as generalizing st ns with
  | nil => exact ⟨st, [], ns, rfl, h, rfl⟩
  | cons a as ih =>
    rw [List.cons_append, appends] at h
    rw [appends]
    cases hr : append env (appendFuel a) a st with
    | none => rw [hr] at h; simp at h
    | some r =>
      rw [hr] at h
      cases r with
      | throw => simp at h
      | ub => simp at h
      | ok x =>
        obtain ⟨s1, n⟩ := x
        dsimp only at h ⊢
        obtain ⟨⟨s2, ns2⟩, a1, a2⟩ := Res.bind_eq_ok.1 h
        simp only [Res.pure_eq, Res.ok.injEq, Prod.mk.injEq] at a2
        rw [a2.1] at a1
        obtain ⟨t1, m1, m2, b1, b2, b3⟩ := ih a1
        refine ⟨t1, n :: m1, m2, ?_, b2, ?_⟩
        · rw [b1]; rfl
        · rw [← a2.2, b3]; rfl

end AZ
