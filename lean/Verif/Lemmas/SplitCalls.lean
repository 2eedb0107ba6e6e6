import Verif.Lemmas.AppendCalls

set_option linter.unusedSimpArgs false

/-! # Arbitrary append calls without multiscale: which frames are stored -/

namespace AZ
open Spec

/-! ### Whole frames of a buffer -/

theorem wholeFrames_length {F : Nat} {d : Bytes} : ∀ f ∈ wholeFrames F d, f.length = F := by
  intro f hf
  unfold wholeFrames at hf
  obtain ⟨i, hi, rfl⟩ := List.mem_map.1 hf
  rw [List.mem_range] at hi
  rw [List.length_take, List.length_drop]
  have h1 : (i + 1) * F ≤ d.length / F * F := Nat.mul_le_mul_right _ hi
  have h2 := Nat.div_mul_le_self d.length F
  rw [Nat.add_mul, Nat.one_mul] at h1
  omega

theorem range_flatten (F : Nat) (d : Bytes) (n : Nat) (h : n * F ≤ d.length) :
    ((List.range n).map fun i => (d.drop (i * F)).take F).flatten = d.take (n * F) := by
  induction n with
  | zero => simp
  | succ n ih =>
    have hn : n * F + F ≤ d.length := by rw [← Nat.succ_mul]; exact h
    rw [List.range_succ, List.map_append, List.flatten_append, ih (by omega), Nat.succ_mul, List.take_add]
    simp

theorem wholeFrames_flatten {F : Nat} (d : Bytes) :
    (wholeFrames F d).flatten ++ d.drop (d.length / F * F) = d := by
  unfold wholeFrames
  rw [range_flatten F d _ (Nat.div_mul_le_self _ _), List.take_append_drop]

theorem wholeFrames_tail {F : Nat} (hF : 0 < F) (d : Bytes) :
    (d.drop (d.length / F * F)).length = d.length % F := by
  rw [List.length_drop, Nat.mul_comm]
  have := Nat.div_add_mod d.length F
  omega

/-! ### The loop -/

/-- Appending whole frames and a tail, with the pointer anywhere behind the count. -/
theorem appendLoop_frames {env : Env} {F : Nat} (hF : 0 < F) (data : Bytes) (frames : List Bytes) (tail : Bytes)
    (hf : ∀ f ∈ frames, f.length = F) (ht : tail.length < F) {fuel ptr bw : Nat} (hp : ptr ≤ bw)
    (hs : slice data ptr (data.length - bw) = frames.flatten ++ tail)
    (hfuel : frames.length + 1 ≤ fuel) {st : SState} (ha : Aligned F st) :
    appendLoop env data fuel ptr bw st =
      liftTail (max data.length bw) tail (foldFrames env frames st) := by
  induction frames generalizing ptr bw fuel st with
  | nil =>
    obtain ⟨fuel, rfl⟩ : ∃ k, fuel = k + 1 := ⟨fuel - 1, by simp at hfuel; omega⟩
    simp only [List.flatten_nil, List.nil_append] at hs
    have hlen : tail.length = data.length - bw := by
      rw [← hs]
      unfold slice
      rw [List.length_take, List.length_drop]
      omega
    unfold appendLoop
    simp only [foldFrames, liftTail]
    by_cases h0 : bw ≥ data.length
    · have : tail = [] := List.eq_nil_of_length_eq_zero (by omega)
      subst this
      rw [if_pos h0, keepTail_nil ha]
      have : max data.length bw = bw := by omega
      rw [this]
    · rw [if_neg h0]
      simp only [ha.offset, ha.buf]
      rw [if_neg (by omega), if_pos (by omega), if_neg (by omega)]
      unfold appendLoop
      rw [if_pos (by omega), hs]
      have e : bw + (data.length - bw) = max data.length bw := by omega
      rw [e, ← hlen]
      rfl
  | cons f fs ih =>
    have hlen := hf f (by simp)
    have hfs := fun x hx => hf x (List.mem_cons_of_mem _ hx)
    obtain ⟨fuel, rfl⟩ : ∃ k, fuel = k + 1 := ⟨fuel - 1, by simp at hfuel; omega⟩
    have hbw : bw + F ≤ data.length := by
      have := congrArg List.length hs
      simp only [List.flatten_cons, List.length_append, hlen] at this
      unfold slice at this
      rw [List.length_take, List.length_drop] at this
      omega
    unfold appendLoop
    rw [if_neg (by omega)]
    simp only [ha.offset, ha.buf]
    rw [if_neg (by omega), if_neg (by omega), if_neg (by omega)]
    have hsplit : slice data ptr (data.length - bw) = slice data ptr F ++ slice data (ptr + F) (data.length - (bw + F)) := by
      unfold slice
      have : data.length - bw = F + (data.length - (bw + F)) := by omega
      rw [this, List.take_add, List.drop_drop]
    have hl1 : (slice data ptr F).length = F := by rw [slice_length]; omega
    rw [hsplit, List.flatten_cons, List.append_assoc] at hs
    obtain ⟨hsl, hrest⟩ := List.append_inj hs (hl1.trans hlen.symm)
    rw [hsl, foldFrames]
    unfold frameStep
    cases h0 : writeLevel0 env st f with
    | throw => simp [liftTail]
    | ub => simp [liftTail]
    | ok r =>
      obtain ⟨st2, k⟩ := r
      have hk : k = F := by
        obtain ⟨l0, rest, hl, hb⟩ := ha.level0
        unfold writeLevel0 at h0
        rw [hl] at h0
        obtain ⟨⟨l0', n, evs, errs⟩, h1, h⟩ := Res.bind_eq_ok.1 h0
        simp only [Res.pure_eq, Res.ok.injEq, Prod.mk.injEq] at h
        rw [← h.2, ← hlen]
        exact writeFrame_ret (hb.trans hlen.symm) (writerStep_spec h1).2.2.1
      subst hk
      simp only [Res.bind_ok]
      rw [if_neg (by omega)]
      cases h1 : writeMultiscale env st2 f with
      | throw => simp [liftTail]
      | ub => simp [liftTail]
      | ok st3 =>
        simp only [Res.bind_ok]
        have ha3 : Aligned k st3 := ha.keeps ((writeLevel0_keeps h0).trans (writeMultiscale_keeps h1))
        have := ih hfs (ptr := ptr + k) (bw := bw + k) (fuel := fuel) (by omega) hrest (by simp at hfuel ⊢; omega) ha3
        rw [this]
        have e : max data.length (bw + k) = max data.length bw := by omega
        rw [e]

/-! ### The frame buffer does not influence what is stored -/

/-- Another frame buffer and another number of kept bytes. -/
def rebuf (b : Bytes) (o : Nat) (st : SState) : SState := { st with buf := b, offset := o }

/-- Completing a split frame does not depend on the bytes kept from the earlier call. -/
theorem writeLevel0_rebuf (env : Env) (st : SState) (b : Bytes) (o : Nat) (d : Bytes) :
    writeLevel0 env (rebuf b o st) d = (writeLevel0 env st d >>= fun r => .ok (rebuf b o r.1, r.2)) := by
  unfold writeLevel0 rebuf
  dsimp only
  split
  · rfl
  · cases writerStep env _ d with
    | throw => rfl
    | ub => rfl
    | ok r => rfl

theorem writeMultiscale_flat {env : Env} {st : SState} (hm : st.multiscale = false) (d : Bytes) :
    writeMultiscale env st d = .ok st := by
  unfold writeMultiscale
  rw [hm]
  rfl

theorem frameStep_flat {env : Env} {st : SState} (hm : st.multiscale = false) (d : Bytes) :
    frameStep env st d = (writeLevel0 env st d >>= fun r => .ok r.1) := by
  unfold frameStep
  cases h : writeLevel0 env st d with
  | throw => rfl
  | ub => rfl
  | ok r =>
    simp only [Res.bind_ok]
    exact writeMultiscale_flat ((writeLevel0_keeps h).multiscale.trans hm) d

theorem writeMultiscale_rebuf (env : Env) (st : SState) (b : Bytes) (o : Nat) (d : Bytes) :
    writeMultiscale env (rebuf b o st) d = (writeMultiscale env st d >>= fun r => .ok (rebuf b o r)) := by
  unfold writeMultiscale rebuf
  dsimp only
  split
  · rfl
  · split
    · rfl
    · cases pyramidLoop env _ _ d _ _ with
      | throw => rfl
      | ub => rfl
      | ok r => rfl

theorem foldFrames_rebuf {env : Env} (fs : List Bytes) (st : SState) (b : Bytes) (o : Nat) :
    foldFrames env fs (rebuf b o st) = (foldFrames env fs st >>= fun r => .ok (rebuf b o r)) := by
  induction fs generalizing st with
  | nil => rfl
  | cons f fs ih =>
    rw [foldFrames, foldFrames]
    unfold frameStep
    rw [writeLevel0_rebuf]
    cases h : writeLevel0 env st f with
    | throw => rfl
    | ub => rfl
    | ok r =>
      simp only [Res.bind_ok]
      rw [writeMultiscale_rebuf]
      cases h' : writeMultiscale env r.1 f with
      | throw => rfl
      | ub => rfl
      | ok r2 =>
        simp only [Res.bind_ok]
        exact ih r2

/-! ### One call -/

theorem foldFrames_healthy {env : Env} {F : Nat} (fs : List Bytes) (hf : ∀ f ∈ fs, f.length = F) {st : SState}
    (h : Healthy F st) : foldFrames env fs st ≠ .ub ∧ ∀ st', foldFrames env fs st = .ok st' → Healthy F st' := by
  induction fs generalizing st with
  | nil =>
    refine ⟨by simp [foldFrames], fun st' he => ?_⟩
    simp only [foldFrames, Res.ok.injEq] at he
    rw [← he]
    exact h
  | cons f fs ih =>
    rw [foldFrames]
    unfold frameStep
    obtain ⟨a1, a2⟩ := writeLevel0_healthy (env := env) h (hf f (by simp))
    cases hw : writeLevel0 env st f with
    | ub => exact absurd hw a1
    | throw => exact ⟨by simp, by simp⟩
    | ok r =>
      simp only [Res.bind_ok]
      obtain ⟨c1, c2⟩ := writeMultiscale_healthy (env := env) (a2 _ _ hw).1 (hf f (by simp))
      cases hm : writeMultiscale env r.1 f with
      | ub => exact absurd hm c1
      | throw => exact ⟨by simp, by simp⟩
      | ok r2 =>
        simp only [Res.bind_ok]
        exact ih (fun x hx => hf x (by simp [hx])) (c2 _ hm)

theorem Healthy.alignedRebuf {F : Nat} {st : SState} (h : Healthy F st) {b : Bytes} (hb : b.length = F) :
    Aligned F (rebuf b 0 st) := by
  obtain ⟨l0, rest, h1, _, h3, _⟩ := h.first
  have hl := (h.levels l0 (by rw [h1]; simp)).1
  exact ⟨rfl, hb, l0, rest, h1, (ArrayDims.bytesOfFrame_eq hl.valid hl.fits).trans h3⟩

/-- The loop from a frame boundary, in terms of the state without the frame buffer. -/
theorem appendLoop_rebuf {env : Env} {F : Nat} (hF : 0 < F) (data : Bytes) {fuel ptr bw : Nat} (hp : ptr ≤ bw)
    (hfuel : (data.length - bw) / F + 1 ≤ fuel) {st : SState} (h : Healthy F st)
    {b : Bytes} (hb : b.length = F) :
    ∃ b' : Bytes, b'.length = F ∧ appendLoop env data fuel ptr bw (rebuf b 0 st) =
      match foldFrames env (wholeFrames F (slice data ptr (data.length - bw))) st with
      | .ok st2 => some (.ok (rebuf b' ((data.length - bw) % F) st2, max data.length bw))
      | .throw => some .throw
      | .ub => some .ub := by
  have hlen : (slice data ptr (data.length - bw)).length = data.length - bw := by
    unfold slice
    rw [List.length_take, List.length_drop]
    omega
  generalize hsl : slice data ptr (data.length - bw) = part at hlen
  have htl := wholeFrames_tail hF part
  have hmod := Nat.mod_lt part.length hF
  have key := appendLoop_frames (env := env) hF data (wholeFrames F part) (part.drop (part.length / F * F))
    wholeFrames_length (by omega) hp (hsl.trans (wholeFrames_flatten part).symm) (fuel := fuel)
    (by unfold wholeFrames; rw [List.length_map, List.length_range, hlen]; omega) (h.alignedRebuf hb)
  refine ⟨pwrite b 0 (part.drop (part.length / F * F)), ?_, ?_⟩
  · rw [pwrite_length_le (by omega), hb]
  · rw [key, foldFrames_rebuf]
    cases foldFrames env (wholeFrames F part) st with
    | throw => rfl
    | ub => rfl
    | ok st2 =>
      simp only [Res.bind_ok, liftTail]
      unfold keepTail rebuf
      dsimp only
      rw [htl, hlen]

/-- What a call does to the levels, in terms of the state without the frame buffer. -/
def callEffect (env : Env) (F o : Nat) (d : Bytes) (st : SState) : Res SState :=
  if o = 0 then foldFrames env (wholeFrames F d) st
  else if Completes F o d.length then
    writeLevel0 env st (d.take F) >>= fun r =>
      foldFrames env (wholeFrames F ((d.drop (F - o)).take (d.length - 2 * (F - o)))) r.1
  else .ok st

/-- A call on a stream with pending bytes does what the specification says on the stream without them. -/
theorem append_effect {env : Env} {F : Nat} (hF : 0 < F) {o : Nat} {st : SState} (h : Healthy F st)
    (he : st.error = []) {b : Bytes} (hb : b.length = F) (ho : o < F) (d : Bytes)
    (hno : ¬ Overreads F o d.length) :
    ∃ b' : Bytes, b'.length = F ∧ append env (appendFuel d) d (rebuf b o st) =
      match callEffect env F o d st with
      | .ok st2 => some (.ok (rebuf b' (nextPending F o d.length) st2, bytesOut F o d.length))
      | .throw => some .throw
      | .ub => some .ub := by
  have hfuel := appendFuel_enough (F := F) d
  unfold append
  have he' : (rebuf b o st).error = [] := he
  rw [he']
  simp only [List.isEmpty_nil, Bool.not_true, Bool.false_eq_true, if_false]
  by_cases h0 : o = 0
  · subst h0
    obtain ⟨b', h1, h2⟩ := appendLoop_rebuf (env := env) hF d (ptr := 0) (bw := 0) (fuel := appendFuel d) (by omega)
      (by rw [Nat.sub_zero]; omega) h hb
    refine ⟨b', h1, ?_⟩
    have e1 : slice d 0 (d.length - 0) = d := by simp [slice]
    have e2 : callEffect env F 0 d st = foldFrames env (wholeFrames F d) st := by rw [callEffect, if_pos rfl]
    have e3 : bytesOut F 0 d.length = max d.length 0 := by
      rw [bytesOut, if_neg (by unfold Completes; omega)]; omega
    have e4 : nextPending F 0 d.length = (d.length - 0) % F := by rw [nextPending, if_pos rfl, Nat.sub_zero]
    rw [h2, e1, e2, e3, e4]
  · by_cases hc : Completes F o d.length
    · have hL : F ≤ d.length := by
        have : ¬ d.length < F := fun hh => hno ⟨hc, hh⟩
        omega
      obtain ⟨n, hn⟩ : ∃ n, appendFuel d = n + 1 := ⟨_, rfl⟩
      rw [hn] at hfuel ⊢
      obtain ⟨st1, hs1⟩ : ∃ st1, st1 = rebuf b o st := ⟨_, rfl⟩
      have ho1 : st1.offset = o := by rw [hs1]; rfl
      have hb1 : st1.buf = b := by rw [hs1]; rfl
      rw [← hs1]
      unfold appendLoop
      rw [if_neg (by omega)]
      dsimp only
      rw [if_pos (by omega), hb1, ho1, hb, Nat.sub_zero, Nat.zero_add, Nat.zero_add, if_neg (by omega)]
      have hmin : min (F - o) d.length = F - o := by omega
      rw [hmin, if_pos (by omega), Nat.zero_add, if_neg (by omega)]
      have hsl : slice d 0 F = d.take F := by simp [slice]
      have hpl : (pwrite b o (slice d 0 (F - o))).length = F := by
        rw [pwrite_length_le (by rw [slice_length (by omega), hb]; omega), hb]
      rw [hsl]
      have hw0 : writeLevel0 env { st1 with buf := pwrite b o (slice d 0 (F - o)), offset := o + (F - o) } (d.take F) =
          (writeLevel0 env st (d.take F) >>= fun r =>
            .ok (rebuf (pwrite b o (slice d 0 (F - o))) (o + (F - o)) r.1, r.2)) := by
        rw [hs1]
        exact writeLevel0_rebuf env st (pwrite b o (slice d 0 (F - o))) (o + (F - o)) (d.take F)
      have hlen : (d.take F).length = F := by simp; omega
      obtain ⟨a1, a2⟩ := writeLevel0_healthy (env := env) h hlen
      rw [callEffect, if_neg h0, if_pos hc, hw0]
      cases hw : writeLevel0 env st (d.take F) with
      | ub => exact absurd hw a1
      | throw => exact ⟨b, hb, rfl⟩
      | ok r =>
        obtain ⟨st', k⟩ := r
        obtain ⟨b1, rfl⟩ := a2 _ _ hw
        simp only [Res.bind_ok]
        rw [if_neg (by omega)]
        obtain ⟨b', h1, h2⟩ := appendLoop_rebuf (env := env) hF d (ptr := k - o) (bw := k - o + (k - o)) (fuel := n)
          (by omega) (by
            have : (d.length - (k - o + (k - o))) / k ≤ d.length / k := Nat.div_le_div_right (by omega)
            omega) b1 hpl
        refine ⟨b', h1, ?_⟩
        have e1 : k - o + (k - o) = 2 * (k - o) := by omega
        have e3 : bytesOut k o d.length = max d.length (2 * (k - o)) := by rw [bytesOut, if_pos hc]
        have e4 : nextPending k o d.length = (d.length - 2 * (k - o)) % k := by
          rw [nextPending, if_neg h0, if_pos hc]
        rw [e1] at h2 ⊢
        rw [e3, e4]
        exact h2
    · have e2 : callEffect env F o d st = .ok st := by rw [callEffect, if_neg h0, if_neg hc]
      have e3 : bytesOut F o d.length = d.length := by rw [bytesOut, if_neg hc]
      have e4 : nextPending F o d.length = o + d.length := by rw [nextPending, if_neg h0, if_neg hc]
      rw [e2, e3, e4]
      dsimp only
      by_cases hL : d.length = 0
      · unfold appendLoop
        rw [if_pos (by omega), hL]
        exact ⟨b, hb, rfl⟩
      · have hlt : o + d.length < F := by
          unfold Completes at hc
          omega
        obtain ⟨n, hn⟩ : ∃ n, appendFuel d = n + 1 := ⟨_, rfl⟩
        rw [hn]
        obtain ⟨st1, hs1⟩ : ∃ st1, st1 = rebuf b o st := ⟨_, rfl⟩
        have ho1 : st1.offset = o := by rw [hs1]; rfl
        have hb1 : st1.buf = b := by rw [hs1]; rfl
        rw [← hs1]
        unfold appendLoop
        rw [if_neg (by omega)]
        dsimp only
        rw [if_pos (by omega), hb1, ho1, hb, Nat.sub_zero, Nat.zero_add, Nat.zero_add]
        have hmin : min (F - o) d.length = d.length := by omega
        rw [hmin, if_neg (by omega), if_neg (by omega)]
        unfold appendLoop
        rw [if_pos (by omega), hs1]
        refine ⟨_, ?_, rfl⟩
        rw [pwrite_length_le (by rw [slice_length (by omega), hb]; omega), hb]

/-- Without multiscale every frame takes the same way. -/
theorem callEffect_flat {env : Env} {F o : Nat} {d : Bytes} {st : SState} (hm : st.multiscale = false) :
    callEffect env F o d st = foldFrames env (callFrames F o d) st := by
  unfold callEffect callFrames
  split
  · rfl
  · split
    · rw [foldFrames, frameStep_flat hm]
      cases writeLevel0 env st (d.take F) <;> rfl
    · rfl

theorem append_split_frames {env : Env} {F : Nat} (hF : 0 < F) {o : Nat} {st : SState} (h : Healthy F st)
    (hm : st.multiscale = false) (he : st.error = []) {b : Bytes} (hb : b.length = F) (ho : o < F) (d : Bytes)
    (hno : ¬ Overreads F o d.length) :
    ∃ b' : Bytes, b'.length = F ∧ append env (appendFuel d) d (rebuf b o st) =
      match foldFrames env (callFrames F o d) st with
      | .ok st2 => some (.ok (rebuf b' (nextPending F o d.length) st2, bytesOut F o d.length))
      | .throw => some .throw
      | .ub => some .ub := by
  obtain ⟨b', h1, h2⟩ := append_effect (env := env) hF h he hb ho d hno
  rw [callEffect_flat hm] at h2
  exact ⟨b', h1, h2⟩

/-! ### Sessions -/

theorem wholeFrames_of_flatten {F : Nat} (hF : 0 < F) (fs : List Bytes) (hf : ∀ f ∈ fs, f.length = F) :
    wholeFrames F fs.flatten = fs := by
  have hlen : ∀ gs : List Bytes, (∀ f ∈ gs, f.length = F) → gs.flatten.length = gs.length * F := by
    intro gs hg
    induction gs with
    | nil => simp
    | cons g gs ih =>
      rw [List.flatten_cons, List.length_append, hg g (by simp), ih fun x hx => hg x (by simp [hx]), List.length_cons,
        Nat.succ_mul, Nat.add_comm]
  have hd : fs.flatten.length / F = fs.length := by rw [hlen fs hf, Nat.mul_div_cancel _ hF]
  have key := wholeFrames_flatten (F := F) fs.flatten
  rw [hd, ← hlen fs hf, List.drop_length, List.append_nil] at key
  have hwl : (wholeFrames F fs.flatten).length = fs.length := by
    unfold wholeFrames
    rw [List.length_map, List.length_range, hd]
  have inj : ∀ as bs : List Bytes, as.length = bs.length → (∀ f ∈ as, f.length = F) → (∀ f ∈ bs, f.length = F) →
      as.flatten = bs.flatten → as = bs := by
    intro as
    induction as with
    | nil => intro bs hb _ _ _; exact (List.eq_nil_of_length_eq_zero hb.symm).symm
    | cons a as ih =>
      intro bs hb h1 h2 h3
      cases bs with
      | nil => simp at hb
      | cons b bs =>
        rw [List.flatten_cons, List.flatten_cons] at h3
        obtain ⟨e1, e2⟩ := List.append_inj h3 ((h1 a (by simp)).trans (h2 b (by simp)).symm)
        rw [e1, ih bs (by simpa using hb) (fun x hx => h1 x (by simp [hx])) (fun x hx => h2 x (by simp [hx])) e2]
  exact inj _ _ hwl wholeFrames_length hf key

theorem callFrames_length {F o : Nat} {d : Bytes} (hno : ¬ Overreads F o d.length) :
    ∀ f ∈ callFrames F o d, f.length = F := by
  intro f hf
  unfold callFrames at hf
  split at hf
  · exact wholeFrames_length f hf
  · split at hf
    · rename_i hc
      rcases List.mem_cons.1 hf with rfl | hf
      · rw [List.length_take]
        have : ¬ d.length < F := fun hh => hno ⟨hc, hh⟩
        omega
      · exact wholeFrames_length f hf
    · simp at hf

theorem nextPending_lt {F : Nat} (hF : 0 < F) {o L : Nat} (ho : o < F) : nextPending F o L < F := by
  unfold nextPending
  split
  · exact Nat.mod_lt _ hF
  · rename_i h0
    split
    · exact Nat.mod_lt _ hF
    · rename_i hc
      unfold Completes at hc
      omega

theorem sessionFrames_length {F : Nat} {o : Nat} {calls : List Bytes} (hin : StaysInside F o calls) :
    ∀ c ∈ sessionFrames F o calls, ∀ f ∈ c, f.length = F := by
  induction calls generalizing o with
  | nil => intro c hc; simp [sessionFrames] at hc
  | cons d ds ih =>
    intro c hc
    rw [sessionFrames] at hc
    rcases List.mem_cons.1 hc with rfl | hc
    · exact callFrames_length hin.1
    · exact ih hin.2 c hc

/-- Arbitrary calls against the calls that pass exactly the stored frames. -/
theorem appends_split_frames {env : Env} {F : Nat} (hF : 0 < F) (calls : List Bytes) {o : Nat} {st : SState}
    (h : Healthy F st) (hm : st.multiscale = false) {b b0 : Bytes} (hb : b.length = F) (hb0 : b0.length = F)
    (ho : o < F) (hin : StaysInside F o calls) :
    appends env calls (rebuf b o st) ≠ .ub ∧
    (∀ st', (∃ b' o', appends env calls (rebuf b o st) = .ok (rebuf b' o' st', sessionBytesOut F o calls)) ↔
      ∃ b' o' ns, appends env ((sessionFrames F o calls).map List.flatten) (rebuf b0 0 st) = .ok (rebuf b' o' st', ns)) ∧
    (∀ st' ns, appends env calls (rebuf b o st) = .ok (st', ns) → ns = sessionBytesOut F o calls) := by
  induction calls generalizing o st b b0 with
  | nil =>
    refine ⟨by simp [appends], fun st' => ⟨?_, ?_⟩, ?_⟩
    · rintro ⟨b', o', he⟩
      simp only [appends, Res.ok.injEq, Prod.mk.injEq] at he
      refine ⟨b0, 0, [], ?_⟩
      simp only [sessionFrames, List.map_nil, appends, Res.ok.injEq, Prod.mk.injEq, and_true]
      have := congrArg (rebuf b0 0) he.1
      simpa [rebuf] using this
    · rintro ⟨b', o', ns, he⟩
      simp only [sessionFrames, List.map_nil, appends, Res.ok.injEq, Prod.mk.injEq] at he
      refine ⟨b, o, ?_⟩
      simp only [appends, sessionBytesOut, Res.ok.injEq, Prod.mk.injEq, and_true]
      have := congrArg (rebuf b o) he.1
      simpa [rebuf] using this
    · intro st' ns he
      simp only [appends, Res.ok.injEq, Prod.mk.injEq] at he
      exact he.2.symm
  | cons d ds ih =>
    rw [sessionFrames, List.map_cons, sessionBytesOut, appends, appends]
    by_cases he : st.error = []
    · obtain ⟨b1, hb1, e1⟩ := append_split_frames (env := env) hF h hm he hb ho d hin.1
      obtain ⟨b2, hb2, e2⟩ := append_split_frames (env := env) hF h hm he hb0 hF (callFrames F o d).flatten
        (fun hh => absurd hh.1.1 (by omega))
      have hc := callFrames_length (F := F) hin.1
      have hcf : callFrames F 0 (callFrames F o d).flatten = callFrames F o d := by
        rw [callFrames, if_pos rfl, wholeFrames_of_flatten hF _ hc]
      have hnp : nextPending F 0 (callFrames F o d).flatten.length = 0 := by
        rw [nextPending, if_pos rfl]
        apply Nat.mod_eq_zero_of_dvd
        have : ∀ gs : List Bytes, (∀ f ∈ gs, f.length = F) → F ∣ gs.flatten.length := by
          intro gs hg
          induction gs with
          | nil => simp
          | cons g gs ih2 =>
            rw [List.flatten_cons, List.length_append, hg g (by simp)]
            exact Nat.dvd_add (Nat.dvd_refl F) (ih2 fun x hx => hg x (by simp [hx]))
        exact this _ hc
      rw [hcf, hnp] at e2
      rw [e1, e2]
      obtain ⟨f1, f2⟩ := foldFrames_healthy (env := env) (callFrames F o d) hc h
      cases hfold : foldFrames env (callFrames F o d) st with
      | ub => exact absurd hfold f1
      | throw => exact ⟨by simp, by simp, by simp⟩
      | ok st2 =>
        dsimp only
        have g1 := f2 _ hfold
        have g2 : st2.multiscale = false := (foldFrames_keeps hfold).multiscale.trans hm
        obtain ⟨i1, i2, i3⟩ := ih (o := nextPending F o d.length) g1 g2 hb1 hb2 (nextPending_lt hF ho) hin.2
        refine ⟨?_, fun st' => ⟨?_, ?_⟩, ?_⟩
        · intro hu
          cases hr : appends env ds (rebuf b1 (nextPending F o d.length) st2) with
          | ub => exact i1 hr
          | throw => rw [hr] at hu; simp at hu
          | ok r => rw [hr] at hu; simp [Res.pure_eq] at hu
        · rintro ⟨b', o', hr⟩
          obtain ⟨⟨s3, ns3⟩, j1, j2⟩ := Res.bind_eq_ok.1 hr
          simp only [Res.pure_eq, Res.ok.injEq, Prod.mk.injEq] at j2
          rw [j2.1, i3 _ _ j1] at j1
          obtain ⟨b'', o'', ns, k⟩ := (i2 st').1 ⟨b', o', j1⟩
          refine ⟨b'', o'', _, Res.bind_eq_ok.2 ⟨_, k, rfl⟩⟩
        · rintro ⟨b', o', ns, hr⟩
          obtain ⟨⟨s3, ns3⟩, j1, j2⟩ := Res.bind_eq_ok.1 hr
          simp only [Res.pure_eq, Res.ok.injEq, Prod.mk.injEq] at j2
          rw [j2.1] at j1
          obtain ⟨b'', o'', k⟩ := (i2 st').2 ⟨b', o', ns3, j1⟩
          refine ⟨b'', o'', Res.bind_eq_ok.2 ⟨_, k, rfl⟩⟩
        · intro st' ns hr
          obtain ⟨⟨s3, ns3⟩, j1, j2⟩ := Res.bind_eq_ok.1 hr
          simp only [Res.pure_eq, Res.ok.injEq, Prod.mk.injEq] at j2
          rw [← j2.2, i3 _ _ j1]
    · have hthrow : ∀ (b : Bytes) (o : Nat) (d : Bytes), append env (appendFuel d) d (rebuf b o st) = some .throw := by
        intro b o d
        unfold append rebuf
        rw [if_pos]
        cases hh : st.error with
        | nil => exact absurd hh he
        | cons a b => rfl
      rw [hthrow, hthrow]
      exact ⟨by simp, by simp, by simp⟩

/-! ### Multiscale streams -/

theorem Keeps.refl (st : SState) : Keeps st st := ⟨rfl, rfl, rfl, rfl, rfl⟩

theorem callPyramid_length {F o : Nat} {d : Bytes} : ∀ f ∈ callPyramid F o d, f.length = F := by
  intro f hf
  unfold callPyramid at hf
  split at hf
  · exact wholeFrames_length f hf
  · split at hf
    · exact wholeFrames_length f hf
    · simp at hf

theorem callPyramid_le (F o : Nat) (d : Bytes) : (callPyramid F o d).length ≤ (callFrames F o d).length := by
  unfold callPyramid callFrames
  split
  · exact Nat.le_refl _
  · split
    · rw [List.length_cons]; omega
    · exact Nat.le_refl _

theorem sessionPyramid_le (F o : Nat) (calls : List Bytes) :
    (sessionPyramid F o calls).flatten.length ≤ (sessionFrames F o calls).flatten.length := by
  induction calls generalizing o with
  | nil => simp [sessionPyramid, sessionFrames]
  | cons d ds ih =>
    rw [sessionPyramid, sessionFrames, List.flatten_cons, List.flatten_cons, List.length_append, List.length_append]
    have := callPyramid_le F o d
    have := ih (nextPending F o d.length)
    omega

/-- A call that succeeds. -/
theorem callEffect_ok {env : Env} {F : Nat} (hF : 0 < F) {o : Nat} {d : Bytes} {st st' : SState} {fs gs : List Bytes}
    {base : List Ev} (hno : ¬ Overreads F o d.length) (ha : Aligned F st) (hi : StreamOk2 env st fs gs)
    (ht : TraceOk st base) (h : callEffect env F o d st = .ok st') :
    Keeps st st' ∧ StreamOk2 env st' (fs ++ callFrames F o d) (gs ++ callPyramid F o d) ∧ TraceOk st' base := by
  unfold callEffect at h
  unfold callFrames callPyramid
  split at h
  · rename_i h0
    rw [if_pos h0, if_pos h0]
    exact ⟨foldFrames_keeps h, foldFrames_ok2 hF _ wholeFrames_length ha h hi, foldFrames_trace h ht⟩
  · rename_i h0
    rw [if_neg h0, if_neg h0]
    split at h
    · rename_i hc
      rw [if_pos hc, if_pos hc]
      obtain ⟨⟨s1, k⟩, h1, h2⟩ := Res.bind_eq_ok.1 h
      have hlen : (d.take F).length = F := by
        have : ¬ d.length < F := fun hh => hno ⟨hc, hh⟩
        rw [List.length_take]; omega
      have hk := writeLevel0_keeps h1
      have h3 := foldFrames_ok2 hF _ wholeFrames_length (ha.keeps hk) h2 (writeLevel0_ok hF ha hlen h1 hi)
      rw [List.append_assoc, List.singleton_append] at h3
      exact ⟨hk.trans (foldFrames_keeps h2), h3, foldFrames_trace h2 (writeLevel0_trace h1 ht)⟩
    · rename_i hc
      rw [if_neg hc, if_neg hc]
      cases h
      exact ⟨Keeps.refl _, by simpa using hi, ht⟩

/-- A call on working storage. -/
theorem callEffect_works {N : Nat} {env : Env} {ms : Bool} {cfg : WConfig} {cfgs : List WConfig}
    (hw : LevelsWork N env ms cfg cfgs) {o : Nat} {d : Bytes} {st : SState} {fs gs : List Bytes}
    (hno : ¬ Overreads (bytesOfFrame cfg.dims) o d.length) (hcfg : st.cfg = cfg)
    (hcfgs : st.levels.map (·.cfg) = cfgs) (hms : st.multiscale = ms)
    (ha : Aligned (bytesOfFrame cfg.dims) st) (hi : StreamOk2 env st fs gs) (he : st.error = [])
    (hn : fs.length + (callFrames (bytesOfFrame cfg.dims) o d).length < N)
    (hgn : gs.length + (callPyramid (bytesOfFrame cfg.dims) o d).length < N)
    (hfs : ∀ g ∈ fs, g.length = bytesOfFrame cfg.dims) :
    ∃ st', callEffect env (bytesOfFrame cfg.dims) o d st = .ok st' ∧ st'.error = [] := by
  unfold callEffect
  unfold callFrames at hn
  unfold callPyramid at hgn
  split
  · rename_i h0
    rw [if_pos h0] at hn hgn
    exact foldFrames_works2 hw _ hcfg hcfgs hms ha hi he hn hgn hfs wholeFrames_length
  · rename_i h0
    rw [if_neg h0] at hn hgn
    split
    · rename_i hc
      rw [if_pos hc] at hn hgn
      rw [List.length_cons] at hn
      have hlen : (d.take (bytesOfFrame cfg.dims)).length = bytesOfFrame cfg.dims := by
        have : ¬ d.length < bytesOfFrame cfg.dims := fun hh => hno ⟨hc, hh⟩
        rw [List.length_take]; omega
      obtain ⟨s1, k, h1, he1⟩ := writeLevel0_works (N := N) (f := d.take (bytesOfFrame cfg.dims)) (by rw [hcfg]; exact ha)
        (by rw [hcfg]; exact hw.pos) hi (by
          intro lv hlv
          apply hw.works
          rw [← hcfgs]
          exact List.mem_map_of_mem hlv) (by omega) (by rw [hcfg]; exact hfs) (by rw [hcfg]; exact hlen) he
      have hk := writeLevel0_keeps h1
      rw [h1]
      simp only [Res.bind_ok]
      refine foldFrames_works2 hw _ (hk.cfg.trans hcfg) (hk.cfgs.trans hcfgs) (hk.multiscale.trans hms) (ha.keeps hk)
        (writeLevel0_ok hw.pos ha hlen h1 hi) he1 ?_ hgn ?_ wholeFrames_length
      · rw [List.length_append, List.length_singleton]; omega
      · intro g hg
        rcases List.mem_append.1 hg with hg | hg
        · exact hfs g hg
        · rw [List.mem_singleton] at hg
          rw [hg]; exact hlen
    · exact ⟨st, rfl, he⟩

theorem callEffect_healthy {env : Env} {F : Nat} {o : Nat} {d : Bytes} {st st' : SState}
    (hno : ¬ Overreads F o d.length) (h : Healthy F st) (he : callEffect env F o d st = .ok st') : Healthy F st' := by
  unfold callEffect at he
  split at he
  · exact (foldFrames_healthy _ wholeFrames_length h).2 _ he
  · split at he
    · rename_i hc
      obtain ⟨⟨s1, k⟩, h1, h2⟩ := Res.bind_eq_ok.1 he
      have hlen : (d.take F).length = F := by
        have : ¬ d.length < F := fun hh => hno ⟨hc, hh⟩
        rw [List.length_take]; omega
      exact (foldFrames_healthy _ wholeFrames_length ((writeLevel0_healthy h hlen).2 _ _ h1).1).2 _ h2
    · cases he; exact h

/-- Successful calls of any sizes: which frames the levels have received. -/
theorem appends_effect {env : Env} {F : Nat} (hF : 0 < F) (calls : List Bytes) {o : Nat} {st stf : SState} {ns : List Nat}
    {fs gs : List Bytes} {base : List Ev} (h : Healthy F st) {b : Bytes} (hb : b.length = F) (ho : o < F)
    (hin : StaysInside F o calls) (ha : Aligned F st) (hi : StreamOk2 env st fs gs) (ht : TraceOk st base)
    (hr : appends env calls (rebuf b o st) = .ok (stf, ns)) :
    ∃ st' b' o', stf = rebuf b' o' st' ∧ Keeps st st' ∧ ns = sessionBytesOut F o calls ∧
      StreamOk2 env st' (fs ++ (sessionFrames F o calls).flatten) (gs ++ (sessionPyramid F o calls).flatten) ∧
      TraceOk st' base := by
  induction calls generalizing o st b fs gs ns with
  | nil =>
    simp only [appends, Res.ok.injEq, Prod.mk.injEq] at hr
    refine ⟨st, b, o, hr.1.symm, Keeps.refl _, hr.2.symm, ?_, ht⟩
    simpa [sessionFrames, sessionPyramid] using hi
  | cons d ds ih =>
    rw [appends] at hr
    by_cases he : st.error = []
    · obtain ⟨b1, hb1, e1⟩ := append_effect (env := env) hF h he hb ho d hin.1
      rw [e1] at hr
      cases hce : callEffect env F o d st with
      | ub => rw [hce] at hr; simp at hr
      | throw => rw [hce] at hr; simp at hr
      | ok st2 =>
        rw [hce] at hr
        obtain ⟨⟨s3, ns3⟩, j1, j2⟩ := Res.bind_eq_ok.1 hr
        simp only [Res.pure_eq, Res.ok.injEq, Prod.mk.injEq] at j2
        rw [j2.1] at j1
        obtain ⟨k1, k2, k3⟩ := callEffect_ok hF hin.1 ha hi ht hce
        obtain ⟨st', b', o', m1, m2, m3, m4, m5⟩ := ih (callEffect_healthy hin.1 h hce) hb1 (nextPending_lt hF ho) hin.2
          (ha.keeps k1) k2 k3 j1
        refine ⟨st', b', o', m1, k1.trans m2, ?_, ?_, m5⟩
        · rw [← j2.2, m3]; rfl
        · rw [sessionFrames, sessionPyramid, List.flatten_cons, List.flatten_cons, ← List.append_assoc, ← List.append_assoc]
          exact m4
    · have : append env (appendFuel d) d (rebuf b o st) = some .throw := by
        unfold append rebuf
        rw [if_pos]
        cases hh : st.error with
        | nil => exact absurd hh he
        | cons a b => rfl
      rw [this] at hr
      simp at hr

/-- Calls of any sizes on working storage. -/
theorem appends_effect_works {N : Nat} {env : Env} {ms : Bool} {cfg : WConfig} {cfgs : List WConfig}
    (hw : LevelsWork N env ms cfg cfgs) (calls : List Bytes) {o : Nat} {st : SState} {fs gs : List Bytes}
    {base : List Ev} (h : Healthy (bytesOfFrame cfg.dims) st) {b : Bytes} (hb : b.length = bytesOfFrame cfg.dims)
    (ho : o < bytesOfFrame cfg.dims)
    (hin : StaysInside (bytesOfFrame cfg.dims) o calls) (hcfg : st.cfg = cfg)
    (hcfgs : st.levels.map (·.cfg) = cfgs) (hms : st.multiscale = ms)
    (ha : Aligned (bytesOfFrame cfg.dims) st) (hi : StreamOk2 env st fs gs) (ht : TraceOk st base) (he : st.error = [])
    (hn : fs.length + (sessionFrames (bytesOfFrame cfg.dims) o calls).flatten.length < N)
    (hgn : gs.length + (sessionPyramid (bytesOfFrame cfg.dims) o calls).flatten.length < N)
    (hfs : ∀ g ∈ fs, g.length = bytesOfFrame cfg.dims) :
    ∃ stf ns, appends env calls (rebuf b o st) = .ok (stf, ns) ∧ stf.error = [] := by
  induction calls generalizing o st b fs gs with
  | nil => exact ⟨_, _, rfl, he⟩
  | cons d ds ih =>
    rw [sessionFrames, List.flatten_cons, List.length_append] at hn
    rw [sessionPyramid, List.flatten_cons, List.length_append] at hgn
    obtain ⟨b1, hb1, e1⟩ := append_effect (env := env) hw.pos h he hb ho d hin.1
    obtain ⟨st2, hce, he2⟩ := callEffect_works hw hin.1 hcfg hcfgs hms ha hi he (by omega) (by omega) hfs
    obtain ⟨k1, k2, k3⟩ := callEffect_ok hw.pos hin.1 ha hi ht hce
    obtain ⟨stf, ns, j1, j2⟩ := ih (callEffect_healthy hin.1 h hce) hb1 (nextPending_lt hw.pos ho) hin.2
      (k1.cfg.trans hcfg) (k1.cfgs.trans hcfgs) (k1.multiscale.trans hms) (ha.keeps k1) k2 k3 he2
      (by rw [List.length_append]; omega) (by rw [List.length_append]; omega) (by
        intro g hg
        rcases List.mem_append.1 hg with hg | hg
        · exact hfs g hg
        · exact callFrames_length hin.1 g hg)
    refine ⟨stf, bytesOut (bytesOfFrame cfg.dims) o d.length :: ns, ?_, j2⟩
    rw [appends, e1, hce]
    exact Res.bind_eq_ok.2 ⟨_, j1, rfl⟩

end AZ
