import Verif.Lemmas.Closed
import Verif.Lemmas.Confined

set_option linter.unusedSimpArgs false

/-! # Whatever fails, a stream leaves the objects it has finished alone -/

namespace AZ
namespace Exc
open Spec

variable {env : Env}

/-- The levels and the history of a stream. -/
structure Inv (levels : List XLevel) (tr : List Ev) : Prop where
  distinct : Distinct (levels.map (·.cfg))
  good : ∀ lv ∈ levels, Good lv.cfg lv.w
  fin : ∀ p, Ev.finalized p ∈ tr → ∃ lv ∈ levels, ∃ g l, p = objectPath lv.cfg g l ∧
    (g < lv.w.st.appendIdx ∨ p ∈ lv.w.closed)
  closed : tr.Pairwise Apart

/-- No level has started more than `K` chunk groups. -/
def Below (K : Nat) (levels : List XLevel) : Prop := ∀ lv ∈ levels, lv.w.st.appendIdx ≤ K

theorem newEvents_eq {a b : XW} {evs : List Ev} (h : b.st.trace = a.st.trace ++ evs) : newEvents a b = evs := by
  unfold newEvents
  rw [h, List.drop_left]

theorem Inv.update {pre post : List XLevel} {lv : XLevel} {w' : XW} {sv : Option (List Nat)} {tr : List Ev} {k : Nat}
    (h : Inv (pre ++ lv :: post) tr) (hw : Tr lv.cfg k lv.w w') :
    Inv (pre ++ { lv with w := w', saved := sv } :: post) (tr ++ newEvents lv.w w') := by
  obtain ⟨g1, l1, u1, e1, t1, p1, f1, c1, s1⟩ := hw
  rw [newEvents_eq t1]
  have hlv : lv ∈ pre ++ lv :: post := by simp
  refine ⟨?_, ?_, ?_, ?_⟩
  · have := h.distinct
    simpa using this
  · intro x hx
    simp only [List.mem_append, List.mem_cons] at hx
    rcases hx with hx | rfl | hx
    · exact h.good x (by simp [hx])
    · exact g1
    · exact h.good x (by simp [hx])
  · intro p hp
    rcases List.mem_append.1 hp with hp | hp
    · obtain ⟨x, hx, g, l, he, hg⟩ := h.fin p hp
      simp only [List.mem_append, List.mem_cons] at hx
      rcases hx with hx | rfl | hx
      · exact ⟨x, by simp [hx], g, l, he, hg⟩
      · refine ⟨{ x with w := w', saved := sv }, by simp, g, l, he, ?_⟩
        rcases hg with hg | hg
        · exact .inl (by dsimp only; omega)
        · obtain ⟨_, _, q2, q3⟩ := s1 (closed_pos hg)
          refine .inr ?_
          unfold XW.closed at hg ⊢
          dsimp only
          rw [q2, q3]; exact hg
      · exact ⟨x, by simp [hx], g, l, he, hg⟩
    · obtain ⟨g, l, he, hg⟩ := f1 p hp
      exact ⟨{ lv with w := w', saved := sv }, by simp, g, l, he, hg⟩
  · refine List.pairwise_append.2 ⟨h.closed, c1, ?_⟩
    intro x hx y hy p hp
    subst hp
    obtain ⟨z, hz, g, l, rfl, hg⟩ := h.fin p hx
    intro he
    -- the new event concerns level `lv`
    have hyo : Owned lv.cfg y.path := by
      rcases p1 y hy with hh | ⟨g', l', hh, _⟩
      · exact .inl hh
      · exact .inr ⟨g', l', hh⟩
    have hzl : z = lv := by
      by_contra hne
      obtain ⟨i, hi⟩ := List.mem_iff_getElem?.1 hz
      obtain ⟨j, hj⟩ := List.mem_iff_getElem?.1 hlv
      have hij : i ≠ j := by
        rintro rfl
        rw [hi] at hj
        exact hne (Option.some.inj hj)
      have hp2 := h.distinct.pair (i := i) (j := j) (a := z.cfg) (b := lv.cfg)
        (by rw [List.getElem?_map, hi]; rfl) (by rw [List.getElem?_map, hj]; rfl) hij
      exact hp2.2 (owned_level hp2.1 (.inr ⟨g, l, rfl⟩) (he ▸ hyo))
    subst hzl
    rcases hg with hg | hg
    · rcases p1 y hy with hh | ⟨g', l', hh, hg'⟩
      · exact objectPath_ne_metaPath (SameStore.refl _) g l (he.symm.trans hh)
      · obtain ⟨_, q, _⟩ := objectPath_inj_level (SameStore.refl _) (he.symm.trans hh)
        omega
    · rw [(s1 (closed_pos hg)).1] at hy
      simp at hy

theorem Inv.saved {pre post : List XLevel} {lv : XLevel} {sv : Option (List Nat)} {tr : List Ev}
    (h : Inv (pre ++ lv :: post) tr) : Inv (pre ++ { lv with saved := sv } :: post) tr := by
  have hn : newEvents lv.w lv.w = [] := newEvents_eq (by simp)
  have := h.update (w' := lv.w) (sv := sv) (Tr.of_eq (h.good lv (by simp)) rfl rfl rfl rfl)
  rw [hn, List.append_nil] at this
  exact this

theorem Tr.owned {cfg : WConfig} {k : Nat} {a b : XW} (h : Tr cfg k a b) : ∀ e ∈ newEvents a b, Owned cfg e.path := by
  obtain ⟨evs, t, o, _⟩ := h.evs
  rw [newEvents_eq t]
  intro e he
  rcases o e he with h | ⟨g, l, h, _⟩
  · exact .inl h
  · exact .inr ⟨g, l, h⟩

theorem inv_pyramid {t : DType} {rest : List XLevel} {data : Bytes} {iw ih K : Nat} {p : XPyramid} {pre : List XLevel}
    {tr : List Ev} (h : Inv (pre ++ rest) tr) (hb : Below K rest) (hK : K + 1 < 2 ^ 32)
    (hp : (pyramidLoopX env t rest data iw ih).Leaves p) :
    Inv (pre ++ p.levels) (tr ++ p.events) ∧ Below (K + 1) p.levels ∧ p.levels.map (·.cfg) = rest.map (·.cfg) ∧
      ∀ e ∈ p.events, ∃ c ∈ rest.map (·.cfg), Owned c e.path := by
  induction rest generalizing data iw ih pre tr p with
  | nil =>
    unfold pyramidLoopX at hp
    rcases hp with ⟨_, hp⟩ | hp
    · cases hp
      exact ⟨by simpa using h, by intro x hx; simp at hx, rfl, by simp⟩
    · simp at hp
  | cons lv rest IH =>
    have hlv : lv.w.st.appendIdx ≤ K := hb lv (by simp)
    have hrest : Below K rest := fun x hx => hb x (by simp [hx])
    have hrest' : Below (K + 1) rest := fun x hx => by have := hb x (by simp [hx]); omega
    have hcons : ∀ {x : XLevel} {ls : List XLevel}, x.w.st.appendIdx ≤ K + 1 → Below (K + 1) ls → Below (K + 1) (x :: ls) := by
      intro x ls hx hl y hy
      rcases List.mem_cons.1 hy with rfl | hy
      · exact hx
      · exact hl y hy
    have both : ∀ {k : Nat} {w' : XW} {es : List Ev}, Tr lv.cfg k lv.w w' → (∀ e ∈ es, ∃ c ∈ rest.map (·.cfg), Owned c e.path) →
        ∀ e ∈ newEvents lv.w w' ++ es, ∃ c ∈ (lv :: rest).map (·.cfg), Owned c e.path := by
      intro k w' es ht hes e he
      rcases List.mem_append.1 he with he | he
      · exact ⟨lv.cfg, by simp, ht.owned e he⟩
      · obtain ⟨c, hc, ho⟩ := hes e he
        exact ⟨c, List.mem_cons_of_mem _ hc, ho⟩
    unfold pyramidLoopX at hp
    split at hp
    · rcases hp with ⟨_, hp⟩ | hp
      · simp at hp
      · cases hp
        exact ⟨by simpa using h, hcons (by omega) hrest', rfl, by simp⟩
    · rcases hp with ⟨_, hp⟩ | hp <;> simp at hp
    · rename_i s hs
      split at hp
      · rcases hp with ⟨_, hp⟩ | hp
        · cases hp
          refine ⟨by simpa using h.saved, hcons (by dsimp only; omega) hrest', rfl, by simp⟩
        · simp at hp
      · rename_i px hpx
        dsimp only at hp
        split at hp
        · rcases hp with ⟨_, hp⟩ | hp <;> simp at hp
        · rename_i w' hw
          have ht := tr_writeFrame (h.good lv (by simp)) (by omega) (.inr hw)
          rcases hp with ⟨_, hp⟩ | hp
          · simp at hp
          · cases hp
            exact ⟨h.update ht, hcons (by have := ht.hi; dsimp only; omega) hrest', rfl, fun e he => ⟨lv.cfg, by simp, ht.owned e he⟩⟩
        · rename_i n w' hw
          have ht := tr_writeFrame (h.good lv (by simp)) (by omega) (.inl ⟨_, hw⟩)
          split at hp
          · rcases hp with ⟨_, hp⟩ | hp
            · simp at hp
            · cases hp
              exact ⟨h.update ht, hcons (by have := ht.hi; dsimp only; omega) hrest', rfl, fun e he => ⟨lv.cfg, by simp, ht.owned e he⟩⟩
          · have hu := h.update (sv := none) ht
            have hu' : Inv ((pre ++ [{ lv with w := w', saved := none }]) ++ rest) (tr ++ newEvents lv.w w') := by
              simpa using hu
            split at hp
            · rcases hp with ⟨_, hp⟩ | hp <;> simp at hp
            · rename_i q hq
              obtain ⟨k1, k2, k3, k4⟩ := IH hu' hrest (.inr hq)
              rcases hp with ⟨_, hp⟩ | hp
              · simp at hp
              · cases hp
                exact ⟨by simpa using k1, hcons (by have := ht.hi; dsimp only; omega) k2, by simp [k3], both ht k4⟩
            · rename_i q hq
              obtain ⟨k1, k2, k3, k4⟩ := IH hu' hrest (.inl ⟨_, hq⟩)
              rcases hp with ⟨_, hp⟩ | hp
              · cases hp
                exact ⟨by simpa using k1, hcons (by have := ht.hi; dsimp only; omega) k2, by simp [k3], both ht k4⟩
              · simp at hp

/-- A stream state between calls. -/
structure Okay (K : Nat) (st : XStream) : Prop where
  inv : Inv st.levels st.trace
  below : Below K st.levels
  off : st.offset ≤ st.buf.length

/-- What a step of the stream keeps, and how it extends the history. -/
structure Same (a b : XStream) : Prop where
  cfg : b.cfg = a.cfg
  cfgs : b.levels.map (·.cfg) = a.levels.map (·.cfg)
  buf : b.buf.length = a.buf.length
  own : ∃ evs, b.trace = a.trace ++ evs ∧ ∀ e ∈ evs, ∃ c ∈ a.levels.map (·.cfg), Owned c e.path

theorem Same.trace {a b : XStream} (h : Same a b) : a.trace <+: b.trace := by
  obtain ⟨evs, h, _⟩ := h.own
  exact ⟨evs, h.symm⟩

theorem Same.refl (a : XStream) : Same a a := ⟨rfl, rfl, rfl, [], by simp, by simp⟩
theorem Same.trans {a b c : XStream} (h1 : Same a b) (h2 : Same b c) : Same a c := by
  refine ⟨h2.cfg.trans h1.cfg, h2.cfgs.trans h1.cfgs, h2.buf.trans h1.buf, ?_⟩
  obtain ⟨e1, t1, o1⟩ := h1.own
  obtain ⟨e2, t2, o2⟩ := h2.own
  refine ⟨e1 ++ e2, by rw [t2, t1, List.append_assoc], ?_⟩
  intro e he
  rcases List.mem_append.1 he with he | he
  · exact o1 e he
  · rw [← h1.cfgs]; exact o2 e he

theorem Okay.mono {K K' : Nat} {st : XStream} (h : Okay K st) (hk : K ≤ K') : Okay K' st :=
  ⟨h.inv, fun lv hlv => (h.below lv hlv).trans hk, h.off⟩

theorem okay_level0 {K : Nat} {st st' : XStream} {data : Bytes} (h : Okay K st) (hK : K + 1 < 2 ^ 32)
    (hs : (writeLevel0X env st data).Leaves st') :
    Inv st'.levels st'.trace ∧ Same st st' ∧ st'.offset = st.offset ∧
      (∃ l0 rest, st'.levels = l0 :: rest ∧ l0.w.st.appendIdx ≤ K + 1 ∧ Below K rest) := by
  unfold writeLevel0X at hs
  cases hl : st.levels with
  | nil =>
    rw [hl] at hs
    rcases hs with ⟨_, hs⟩ | hs <;> simp at hs
  | cons l0 rest =>
    rw [hl] at hs
    dsimp only at hs
    have hi := h.inv
    rw [hl] at hi
    have hb := h.below
    rw [hl] at hb
    have hl0 := hb l0 (by simp)
    have main : ∀ w, (writeFrameX env l0.cfg data l0.w).Leaves w → st' = st.afterLevel0 l0 rest w →
        Inv st'.levels st'.trace ∧ Same st st' ∧ st'.offset = st.offset ∧
          (∃ l0 rest, st'.levels = l0 :: rest ∧ l0.w.st.appendIdx ≤ K + 1 ∧ Below K rest) := by
      intro w hw he
      subst he
      have ht := tr_writeFrame (hi.good l0 (by simp)) (by omega) hw
      have hu := Inv.update (pre := []) (sv := l0.saved) (by simpa using hi) ht
      refine ⟨by simpa [XStream.afterLevel0] using hu, ⟨rfl, by simp [XStream.afterLevel0, hl], rfl, _, rfl, fun e he => ⟨l0.cfg, by simp [hl], ht.owned e he⟩⟩, rfl, _, rest, rfl, ?_, ?_⟩
      · have := ht.hi; dsimp only; omega
      · exact fun x hx => hb x (by simp [hx])
    split at hs
    · rcases hs with ⟨_, hs⟩ | hs <;> simp at hs
    · rename_i w hw
      rcases hs with ⟨_, hs⟩ | hs
      · simp at hs
      · cases hs; exact main w (.inr hw) rfl
    · rename_i n w hw
      rcases hs with ⟨_, hs⟩ | hs
      · cases hs; exact main w (.inl ⟨_, hw⟩) rfl
      · simp at hs

theorem bind_ok {σ α β : Type} {o : Out σ α} {f : α → σ → Out σ β} {b : β} {s : σ} (h : o.bind f = .ok b s) :
    ∃ a t, o = .ok a t ∧ f a t = .ok b s := by
  cases o with
  | ok a t => exact ⟨a, t, rfl, h⟩
  | throw t => simp [Out.bind] at h
  | ub => simp [Out.bind] at h

theorem level0_written {st st' : XStream} {data : Bytes} {k : Nat} (h : writeLevel0X env st data = .ok k st') :
    k = 0 ∨ k = data.length := by
  unfold writeLevel0X at h
  split at h
  · simp at h
  · split at h
    · simp at h
    · simp at h
    · rename_i n w hw
      cases h
      unfold writeFrameX at hw
      split at hw
      · cases hw; exact .inl rfl
      · dsimp only at hw
        split at hw
        · simp at hw
        · simp at hw
        · split at hw
          · simp at hw
          · rename_i hne
            split at hw
            · simp at hw
            · simp at hw
            · obtain ⟨_, _, _, hw⟩ := bind_ok hw
              cases hw
              exact .inr (by simpa using hne)

theorem okay_multiscale {K : Nat} {st st' : XStream} {data : Bytes} (hi : Inv st.levels st.trace)
    (hl : ∃ l0 rest, st.levels = l0 :: rest ∧ l0.w.st.appendIdx ≤ K + 1 ∧ Below K rest) (ho : st.offset ≤ st.buf.length)
    (hK : K + 1 < 2 ^ 32) (hs : (writeMultiscaleX env st data).Leaves st') :
    Okay (K + 1) st' ∧ Same st st' ∧ st'.offset = st.offset := by
  obtain ⟨l0, rest, hl, b0, br⟩ := hl
  have hkeep : Okay (K + 1) st := by
    refine ⟨hi, ?_, ho⟩
    intro x hx
    rw [hl] at hx
    rcases List.mem_cons.1 hx with rfl | hx
    · exact b0
    · have := br x hx; omega
  unfold writeMultiscaleX at hs
  split at hs
  · rcases hs with ⟨_, hs⟩ | hs
    · cases hs; exact ⟨hkeep, Same.refl _, rfl⟩
    · simp at hs
  · rw [hl] at hs
    dsimp only at hs
    have main : ∀ p, (pyramidLoopX env st.cfg.dims.dtype rest data st.cfg.dims.width.arraySize
        st.cfg.dims.height.arraySize).Leaves p → st' = st.afterPyramid l0 p →
        Okay (K + 1) st' ∧ Same st st' ∧ st'.offset = st.offset := by
      intro p hp he
      subst he
      rw [hl] at hi
      obtain ⟨k1, k2, k3, k4⟩ := inv_pyramid (pre := [l0]) (by simpa using hi) br hK hp
      refine ⟨⟨by simpa [XStream.afterPyramid] using k1, ?_, ho⟩, ⟨rfl, by simp [XStream.afterPyramid, hl, k3], rfl, _, rfl, fun e he => by
        obtain ⟨c, hc, ho⟩ := k4 e he
        rw [hl]
        exact ⟨c, List.mem_cons_of_mem _ hc, ho⟩⟩, rfl⟩
      intro x hx
      rcases List.mem_cons.1 hx with rfl | hx
      · exact b0
      · exact k2 x hx
    split at hs
    · rcases hs with ⟨_, hs⟩ | hs <;> simp at hs
    · rename_i p hp
      rcases hs with ⟨_, hs⟩ | hs
      · simp at hs
      · cases hs; exact main p (.inr hp) rfl
    · rename_i p hp
      rcases hs with ⟨_, hs⟩ | hs
      · cases hs; exact main p (.inl ⟨_, hp⟩) rfl
      · simp at hs

/-- Frames the loop can still write. -/
def budget (data : Bytes) (bw : Nat) (st : XStream) : Nat :=
  if bw ≥ data.length then 0 else (if st.offset > 0 then 2 else 1) + (data.length - bw) / st.buf.length

theorem Okay.with {K : Nat} {st : XStream} (h : Okay K st) {buf : Bytes} {o : Nat} (ho : o ≤ buf.length) :
    Okay K { st with buf := buf, offset := o } := ⟨h.inv, h.below, ho⟩

theorem okay_loop (data : Bytes) (fuel : Nat) {ptr bw K : Nat} {st st' : XStream} {o : Out XStream Nat} (h : Okay K st)
    (hK : K + budget data bw st < 2 ^ 32) (hr : appendLoopX env data fuel ptr bw st = some o) (hs : o.Leaves st') :
    Okay (K + budget data bw st) st' ∧ Same st st' := by
  induction fuel generalizing ptr bw st K with
  | zero =>
    unfold appendLoopX at hr
    split at hr
    · cases hr
      rcases hs with ⟨_, hs⟩ | hs
      · cases hs; exact ⟨h.mono (by omega), Same.refl _⟩
      · simp at hs
    · simp at hr
  | succ fuel ih =>
    unfold appendLoopX at hr
    split at hr
    · cases hr
      rcases hs with ⟨_, hs⟩ | hs
      · cases hs; exact ⟨h.mono (by omega), Same.refl _⟩
      · simp at hs
    · rename_i hbw
      have hbud : budget data bw st = (if st.offset > 0 then 2 else 1) + (data.length - bw) / st.buf.length := by
        unfold budget; rw [if_neg hbw]
      obtain ⟨Q, hQ⟩ : ∃ Q, Q = (data.length - bw) / st.buf.length := ⟨_, rfl⟩
      rw [← hQ] at hbud
      dsimp only at hr
      have nub : ∀ {s : XStream}, ¬ (Out.ub : Out XStream Nat).Leaves s := by
        intro s hh; rcases hh with ⟨_, hh⟩ | hh <;> simp at hh
      split at hr
      · rename_i hoff
        rw [if_pos hoff] at hbud
        generalize hn : min (st.buf.length - st.offset) (data.length - bw) = n at hr
        split at hr
        · cases hr; exact absurd hs nub
        · rename_i hub
          have hnlen : (slice data (ptr + bw) n).length = n := slice_length (by omega)
          have hnb : st.offset + n ≤ st.buf.length := by have := h.off; omega
          have hbl : (pwrite st.buf st.offset (slice data (ptr + bw) n)).length = st.buf.length :=
            pwrite_length (by rw [hnlen]; exact hnb)
          have h1 : Okay K { st with buf := pwrite st.buf st.offset (slice data (ptr + bw) n), offset := st.offset + n } :=
            h.with (by rw [hbl]; exact hnb)
          have hsame : Same st { st with buf := pwrite st.buf st.offset (slice data (ptr + bw) n), offset := st.offset + n } :=
            ⟨rfl, rfl, hbl, [], (List.append_nil _).symm, by simp⟩
          obtain ⟨st1, hst1⟩ : ∃ x : XStream, x =
            { st with buf := pwrite st.buf st.offset (slice data (ptr + bw) n), offset := st.offset + n } := ⟨_, rfl⟩
          rw [← hst1] at h1 hsame
          have hoff1 : st1.offset = st.offset + n := by rw [hst1]
          split at hr
          · split at hr
            · cases hr; exact absurd hs nub
            · split at hr
              · rename_i s hw
                cases hr
                rw [← hst1] at hw
                obtain ⟨k1, k2, k3, l0, rest, k4, k5, k6⟩ := okay_level0 h1 (by omega) (.inr hw)
                rcases hs with ⟨_, hs⟩ | hs
                · simp at hs
                · cases hs
                  refine ⟨⟨k1, ?_, by rw [k3, hoff1, k2.buf, hsame.buf]; exact hnb⟩, hsame.trans k2⟩
                  intro x hx
                  rw [k4] at hx
                  rcases List.mem_cons.1 hx with rfl | hx
                  · omega
                  · have := k6 x hx; omega
              · cases hr; exact absurd hs nub
              · rename_i k st2 hw
                rw [← hst1] at hw
                obtain ⟨k1, k2, k3, l0, rest, k4, k5, k6⟩ := okay_level0 h1 (by omega) (.inl ⟨_, hw⟩)
                have hok2 : Okay (K + 1) st2 := by
                  refine ⟨k1, ?_, by rw [k3, hoff1, k2.buf, hsame.buf]; exact hnb⟩
                  intro x hx
                  rw [k4] at hx
                  rcases List.mem_cons.1 hx with rfl | hx
                  · omega
                  · have := k6 x hx; omega
                split at hr
                · cases hr
                  rcases hs with ⟨_, hs⟩ | hs
                  · cases hs
                    exact ⟨hok2.mono (by omega), hsame.trans k2⟩
                  · simp at hs
                · have hb2 : budget data (bw + n + n) { st2 with offset := 0 } ≤ 1 + Q := by
                    rw [hQ]
                    unfold budget
                    split
                    · omega
                    · simp only [gt_iff_lt, Nat.lt_irrefl, if_false]
                      rw [show ({ st2 with offset := 0 } : XStream).buf.length = st.buf.length from k2.buf.trans hsame.buf]
                      exact Nat.add_le_add_left (Nat.div_le_div_right (by omega)) 1
                  obtain ⟨m1, m2⟩ := ih (st := { st2 with offset := 0 }) (K := K + 1) ⟨hok2.inv, hok2.below, Nat.zero_le _⟩ (by omega) hr
                  refine ⟨m1.mono (by omega), hsame.trans (k2.trans ?_)⟩
                  exact ⟨m2.cfg, m2.cfgs, m2.buf, m2.own⟩
          · rename_i hne
            have hnr : n = data.length - bw := by
              have := h.off
              omega
            have hb0 : budget data (bw + n) st1 = 0 := by unfold budget; rw [if_pos (by omega)]
            rw [← hst1] at hr
            obtain ⟨m1, m2⟩ := ih h1 (by omega) hr
            exact ⟨m1.mono (by omega), hsame.trans m2⟩
      · rename_i hoff
        rw [if_neg hoff] at hbud
        split at hr
        · rename_i hrem
          split at hr
          · cases hr; exact absurd hs nub
          · rename_i hub
            have hnlen : (slice data ptr (data.length - bw)).length = data.length - bw := slice_length (by omega)
            have hbl : (pwrite st.buf 0 (slice data ptr (data.length - bw))).length = st.buf.length :=
              pwrite_length (by rw [hnlen]; omega)
            have h1 : Okay K { st with buf := pwrite st.buf 0 (slice data ptr (data.length - bw)), offset := data.length - bw } :=
              h.with (by rw [hbl]; omega)
            have hb0 : budget data (bw + (data.length - bw))
                { st with buf := pwrite st.buf 0 (slice data ptr (data.length - bw)), offset := data.length - bw } = 0 := by
              unfold budget; rw [if_pos (by omega)]
            obtain ⟨m1, m2⟩ := ih h1 (by omega) hr
            refine ⟨m1.mono (by omega), Same.trans (b := { st with buf := pwrite st.buf 0 (slice data ptr (data.length - bw)), offset := data.length - bw }) ⟨rfl, rfl, hbl, [], (List.append_nil _).symm, by simp⟩ m2⟩
        · rename_i hrem
          split at hr
          · cases hr; exact absurd hs nub
          · rename_i hub
            have hflen : (slice data ptr st.buf.length).length = st.buf.length := slice_length (by omega)
            split at hr
            · rename_i s hw
              cases hr
              obtain ⟨k1, k2, k3, l0, rest, k4, k5, k6⟩ := okay_level0 h (by omega) (.inr hw)
              rcases hs with ⟨_, hs⟩ | hs
              · simp at hs
              · cases hs
                refine ⟨⟨k1, ?_, by rw [k3, k2.buf]; exact h.off⟩, k2⟩
                intro x hx
                rw [k4] at hx
                rcases List.mem_cons.1 hx with rfl | hx
                · omega
                · have := k6 x hx; omega
            · cases hr; exact absurd hs nub
            · rename_i k st2 hw
              obtain ⟨k1, k2, k3, l0, rest, k4, k5, k6⟩ := okay_level0 h (by omega) (.inl ⟨_, hw⟩)
              split at hr
              · cases hr
                rcases hs with ⟨_, hs⟩ | hs
                · cases hs
                  refine ⟨⟨k1, ?_, by rw [k3, k2.buf]; exact h.off⟩, k2⟩
                  intro x hx
                  rw [k4] at hx
                  rcases List.mem_cons.1 hx with rfl | hx
                  · omega
                  · have := k6 x hx; omega
                · simp at hs
              · rename_i hk0
                have hkF : k = st.buf.length := by
                  rcases level0_written hw with hk | hk
                  · exact absurd hk hk0
                  · rw [hk, hflen]
                have ho2 : st2.offset ≤ st2.buf.length := by rw [k3, k2.buf]; exact h.off
                split at hr
                · rename_i s hm
                  cases hr
                  obtain ⟨m1, m2, m3⟩ := okay_multiscale k1 ⟨l0, rest, k4, k5, k6⟩ ho2 (by omega) (.inr hm)
                  rcases hs with ⟨_, hs⟩ | hs
                  · simp at hs
                  · cases hs
                    exact ⟨m1.mono (by omega), k2.trans m2⟩
                · cases hr; exact absurd hs nub
                · rename_i st3 hm
                  obtain ⟨m1, m2, m3⟩ := okay_multiscale k1 ⟨l0, rest, k4, k5, k6⟩ ho2 (by omega) (.inl ⟨_, hm⟩)
                  have hbuf : st3.buf.length = st.buf.length := m2.buf.trans k2.buf
                  have hdiv : Q = (data.length - bw - st.buf.length) / st.buf.length + 1 := by
                    rw [hQ]; exact Nat.div_eq_sub_div (by omega) (by omega)
                  have hb3 : budget data (bw + k) st3 + 1 ≤ budget data bw st := by
                    rw [hbud]
                    unfold budget
                    split
                    · omega
                    · rw [if_neg (by rw [m3, k3]; exact hoff), hbuf, hkF, hdiv]
                      have : data.length - (bw + st.buf.length) = data.length - bw - st.buf.length := by omega
                      rw [this]
                      omega
                  obtain ⟨n1, n2⟩ := ih m1 (by omega) hr
                  exact ⟨n1.mono (by omega), k2.trans (m2.trans n2)⟩

/-- Frames that append calls of these sizes can write at most, for frames of `F` bytes. -/
def maxFrames (F : Nat) (calls : List Bytes) : Nat := (calls.map fun d => d.length / F + 2).sum

theorem budget_le (data : Bytes) (st : XStream) : budget data 0 st ≤ data.length / st.buf.length + 2 := by
  unfold budget
  rw [Nat.sub_zero]
  generalize data.length / st.buf.length = Q
  split
  · omega
  · split <;> omega

theorem okay_append {K : Nat} {st st' : XStream} {data : Bytes} {o : Out XStream Nat} (h : Okay K st)
    (hK : K + (data.length / st.buf.length + 2) < 2 ^ 32) (hr : appendX env data st = some o) (hs : o.Leaves st') :
    Okay (K + (data.length / st.buf.length + 2)) st' ∧ Same st st' := by
  unfold appendX at hr
  split at hr
  · cases hr
    rcases hs with ⟨_, hs⟩ | hs
    · simp at hs
    · cases hs; exact ⟨h.mono (Nat.le_add_right _ _), Same.refl _⟩
  · have hb := budget_le data st
    obtain ⟨k1, k2⟩ := okay_loop data _ h (by omega) hr hs
    exact ⟨k1.mono (by omega), k2⟩

theorem okay_calls {calls : List (Env × Bytes)} {K : Nat} {st st' : XStream} {rs : List Status} (h : Okay K st)
    (hK : K + maxFrames st.buf.length (calls.map (·.2)) < 2 ^ 32) (hr : callsX calls st = some (st', rs)) :
    Okay (K + maxFrames st.buf.length (calls.map (·.2))) st' ∧ Same st st' := by
  induction calls generalizing st K rs with
  | nil =>
    cases hr
    exact ⟨h.mono (by omega), Same.refl _⟩
  | cons c cs ih =>
    obtain ⟨env, d⟩ := c
    have hm : maxFrames st.buf.length (((env, d) :: cs).map (·.2)) =
        (d.length / st.buf.length + 2) + maxFrames st.buf.length (cs.map (·.2)) := by
      simp [maxFrames]
    rw [hm] at hK ⊢
    have main : ∀ s o, appendX env d st = some o → o.Leaves s → ∀ rs', callsX cs s = some (st', rs') →
        Okay (K + (d.length / st.buf.length + 2 + maxFrames st.buf.length (cs.map (·.2)))) st' ∧ Same st st' := by
      intro s o ho hs rs' hr'
      obtain ⟨k1, k2⟩ := okay_append h (by omega) ho hs
      have hbuf := k2.buf
      obtain ⟨m1, m2⟩ := ih k1 (by rw [hbuf]; omega) hr'
      rw [hbuf] at m1
      exact ⟨m1.mono (by omega), k2.trans m2⟩
    unfold callsX at hr
    split at hr
    · simp at hr
    · simp at hr
    · rename_i s ho
      cases hcs : callsX cs s with
      | none => rw [hcs] at hr; simp at hr
      | some x =>
        obtain ⟨s', rs'⟩ := x
        rw [hcs] at hr
        cases hr
        exact main s _ ho (.inr rfl) rs' hcs
    · rename_i n s ho
      cases hcs : callsX cs s with
      | none => rw [hcs] at hr; simp at hr
      | some x =>
        obtain ⟨s', rs'⟩ := x
        rw [hcs] at hr
        cases hr
        exact main s _ ho (.inl ⟨n, rfl⟩) rs' hcs

theorem callsX_append {a b : List (Env × Bytes)} {st st1 st2 : XStream} {r1 r2 : List Status}
    (h1 : callsX a st = some (st1, r1)) (h2 : callsX b st1 = some (st2, r2)) :
    callsX (a ++ b) st = some (st2, r1 ++ r2) := by
  induction a generalizing st r1 with
  | nil => cases h1; exact h2
  | cons c cs ih =>
    obtain ⟨env, d⟩ := c
    rw [List.cons_append]
    unfold callsX at h1 ⊢
    split at h1
    · simp at h1
    · simp at h1
    · rename_i s ho
      cases hcs : callsX cs s with
      | none => rw [hcs] at h1; simp at h1
      | some x =>
        obtain ⟨s', rs'⟩ := x
        rw [hcs] at h1
        cases h1
        dsimp only
        rw [ih hcs]
        rfl
    · rename_i n s ho
      cases hcs : callsX cs s with
      | none => rw [hcs] at h1; simp at h1
      | some x =>
        obtain ⟨s', rs'⟩ := x
        rw [hcs] at h1
        cases h1
        dsimp only
        rw [ih hcs]
        rfl

/-! ### Closing -/

/-- Closing the arrays. -/
theorem closed_levels {levels : List XLevel} {K : Nat} (hd : Distinct (levels.map (·.cfg)))
    (hg : ∀ lv ∈ levels, Good lv.cfg lv.w) (hb : Below K levels) (hK : K + 1 < 2 ^ 32) {evs : List Ev} {b : Bool}
    (h : finalizeLevelsX env levels = some (evs, b)) :
    evs.Pairwise Apart ∧ (∀ e ∈ evs, ∃ lv ∈ levels, Owned lv.cfg e.path) ∧
      ∀ lv ∈ levels, ∀ g l, (g < lv.w.st.appendIdx ∨ objectPath lv.cfg g l ∈ lv.w.closed) →
        ∀ e ∈ evs, e.path ≠ objectPath lv.cfg g l := by
  induction levels generalizing evs b with
  | nil => cases h; simp
  | cons lv rest ih =>
    have hdr : Distinct (rest.map (·.cfg)) := (List.pairwise_cons.1 hd).2
    have hd0 : ∀ x ∈ rest, SameStore lv.cfg x.cfg ∧ lv.cfg.level ≠ x.cfg.level := fun x hx =>
      (List.pairwise_cons.1 hd).1 x.cfg (List.mem_map_of_mem hx)
    have other : ∀ x ∈ rest, ∀ p, Owned lv.cfg p → ¬ Owned x.cfg p := fun x hx p h1 h2 =>
      (hd0 x hx).2 (owned_level (hd0 x hx).1 h1 h2)
    unfold finalizeLevelsX at h
    have hlt : lv.w.st.appendIdx + 1 < 2 ^ 32 := by have := hb lv (by simp); omega
    have head : ∀ w, (finalizeArrayX env lv.cfg lv.w).Leaves w → (newEvents lv.w w).Pairwise Apart ∧
        (∀ e ∈ newEvents lv.w w, Owned lv.cfg e.path) ∧
        ∀ g l, (g < lv.w.st.appendIdx ∨ objectPath lv.cfg g l ∈ lv.w.closed) →
          ∀ e ∈ newEvents lv.w w, e.path ≠ objectPath lv.cfg g l := by
      intro w hw
      obtain ⟨e1, t1, k1, k2, k3⟩ := finish (hg lv (by simp)) hlt hw
      rw [newEvents_eq t1]
      exact ⟨k1, k2, k3⟩
    split at h
    · simp at h
    · rename_i w hw
      cases h
      obtain ⟨k1, k2, k3⟩ := head w (.inr hw)
      refine ⟨k1, fun e he => ⟨lv, by simp, k2 e he⟩, ?_⟩
      intro x hx g l hgl e he
      rcases List.mem_cons.1 hx with rfl | hx
      · exact k3 g l hgl e he
      · intro hp
        exact other x hx _ (k2 e he) (.inr ⟨g, l, hp⟩)
    · rename_i u w hw
      obtain ⟨k1, k2, k3⟩ := head w (.inl ⟨_, hw⟩)
      cases hr : finalizeLevelsX env rest with
      | none => rw [hr] at h; simp at h
      | some y =>
        obtain ⟨e2, b2⟩ := y
        rw [hr] at h
        cases h
        obtain ⟨m1, m2, m3⟩ := ih hdr (fun x hx => hg x (by simp [hx])) (fun x hx => hb x (by simp [hx])) hr
        refine ⟨?_, ?_, ?_⟩
        · refine List.pairwise_append.2 ⟨k1, m1, ?_⟩
          intro x hx y hy p hp
          subst hp
          obtain ⟨z, hz, ho⟩ := m2 y hy
          intro he
          exact other z hz _ (k2 _ hx) (by rw [← he] at *; exact ho)
        · intro e he
          rcases List.mem_append.1 he with he | he
          · exact ⟨lv, by simp, k2 e he⟩
          · obtain ⟨z, hz, ho⟩ := m2 e he
            exact ⟨z, by simp [hz], ho⟩
        · intro x hx g l hgl e he
          rcases List.mem_cons.1 hx with rfl | hx
          · rcases List.mem_append.1 he with he | he
            · exact k3 g l hgl e he
            · intro hp
              obtain ⟨z, hz, ho⟩ := m2 e he
              exact other z hz _ (.inr ⟨g, l, hp⟩) ho
          · rcases List.mem_append.1 he with he | he
            · intro hp
              exact other x hx _ (k2 e he) (.inr ⟨g, l, hp⟩)
            · exact m3 x hx g l hgl e he

/-- Closing the stream: the history is extended, and no finished object is touched. -/
theorem closed_destroy {K : Nat} {st : XStream} (h : Okay K st) (hK : K + 1 < 2 ^ 32)
    (hs : ∀ lv ∈ st.levels, SameStore st.cfg lv.cfg) {tr : List Ev} {b : Bool} (hr : destroyX env st = some (tr, b)) :
    st.trace <+: tr ∧ tr.Pairwise Apart ∧ ∃ evs, tr = st.trace ++ evs ∧ ∀ e ∈ evs, StreamObject st.cfg (st.levels.map (·.cfg)) e.path := by
  unfold destroyX at hr
  dsimp only at hr
  have hkey := groupDoc_key st.cfg st.levels.length
  -- events about documents do not concern finished objects
  have old : ∀ evs : List Ev, (∀ e ∈ evs, ∃ k ∈ metaKeys st.cfg.version, e.path = metaSinkPath st.cfg k) →
      ∀ x ∈ st.trace, ∀ y ∈ evs, Apart x y := by
    intro evs hev x hx y hy p hp
    subst hp
    obtain ⟨lv, hlv, g, l, rfl, _⟩ := h.inv.fin p hx
    obtain ⟨k, hk, he⟩ := hev y hy
    rw [he]
    exact metaSinkPath_ne_object (hs lv hlv) hk g l
  split at hr
  · simp at hr
  · cases hr
    exact ⟨List.prefix_refl _, h.inv.closed, [], by simp, by simp⟩
  · rename_i e1 h1
    have d1 := writeDoc_docs hkey h1
    have n1 : ∀ e ∈ e1, ∀ p, e ≠ .finalized p := by
      unfold writeDoc at h1
      split at h1
      · cases h1; intro e he; simp at he; subst he; simp
      · cases h1; simp
      · simp at h1
      · simp at h1
    have c1 : e1.Pairwise Apart := by
      refine List.pairwise_iff_forall_sublist.2 ?_
      intro x y hxy p hp
      exact absurd hp (n1 x (hxy.subset (by simp)) p)
    have hnd : ((metaKeys st.cfg.version).map (metaSinkPath st.cfg)).Nodup := by
      refine (metaKeys_distinct st.cfg.version).map ?_
      intro a b hab
      exact metaSinkPath_inj hab
    have docs : ∀ ps, ps <+: (metaKeys st.cfg.version).map (metaSinkPath st.cfg) →
        (st.trace ++ e1 ++ ps.map Ev.finalized).Pairwise Apart := by
      intro ps hps
      refine List.pairwise_append.2 ⟨List.pairwise_append.2 ⟨h.inv.closed, c1, old e1 d1⟩,
        finalized_apart (hnd.sublist hps.sublist), ?_⟩
      intro x hx y hy
      rcases List.mem_append.1 hx with hx | hx
      · refine old (ps.map Ev.finalized) ?_ x hx y hy
        intro e he
        obtain ⟨q, hq, rfl⟩ := List.mem_map.1 he
        obtain ⟨k, hk, rfl⟩ := List.mem_map.1 (hps.subset hq)
        exact ⟨k, hk, rfl⟩
      · intro p hp
        exact absurd hp (n1 x hx p)
    have obj : ∀ {ps}, ps <+: (metaKeys st.cfg.version).map (metaSinkPath st.cfg) →
        ∀ e ∈ e1 ++ ps.map Ev.finalized, StreamObject st.cfg (st.levels.map (·.cfg)) e.path := by
      intro ps hps e he
      rcases List.mem_append.1 he with he | he
      · exact .inr (d1 e he)
      · obtain ⟨q, hq, rfl⟩ := List.mem_map.1 he
        obtain ⟨k, hk, rfl⟩ := List.mem_map.1 (hps.subset hq)
        exact .inr ⟨k, hk, rfl⟩
    split at hr
    · simp at hr
    · cases hr
      refine ⟨by rw [List.append_assoc]; exact List.prefix_append _ _, docs _ (List.takeWhile_prefix _), _, List.append_assoc .., ?_⟩
      exact obj (List.takeWhile_prefix _)
    · rename_i e2 h2
      have he2 := finalizeSinks_paths h2
      subst he2
      cases h3 : finalizeLevelsX env st.levels with
      | none => rw [h3] at hr; simp at hr
      | some z =>
        obtain ⟨e3, b3⟩ := z
        rw [h3] at hr
        cases hr
        obtain ⟨k1, k2, k3⟩ := closed_levels h.inv.distinct h.inv.good h.below hK h3
        refine ⟨by simp only [List.append_assoc]; exact List.prefix_append _ _, List.pairwise_append.2
          ⟨docs _ (List.prefix_refl _), k1, ?_⟩, e1 ++ ((metaKeys st.cfg.version).map (metaSinkPath st.cfg)).map Ev.finalized ++ e3,
          by simp only [List.append_assoc], ?_⟩
        rotate_left
        · intro e he
          rcases List.mem_append.1 he with he | he
          · exact obj (List.prefix_refl _) e he
          · obtain ⟨lv, hlv, ho⟩ := k2 e he
            exact .inl ⟨lv.cfg, List.mem_map_of_mem hlv, ho⟩
        intro x hx y hy p hp
        subst hp
        rcases List.mem_append.1 hx with hx | hx
        · rcases List.mem_append.1 hx with hx | hx
          · obtain ⟨lv, hlv, g, l, rfl, hgl⟩ := h.inv.fin p hx
            exact k3 lv hlv g l hgl y hy
          · exact absurd rfl (n1 _ hx p)
        · obtain ⟨q, hq, he⟩ := List.mem_map.1 hx
          cases he
          obtain ⟨k, hk, rfl⟩ := List.mem_map.1 hq
          obtain ⟨lv, hlv, ho⟩ := k2 y hy
          exact (owned_ne_sink (hs lv hlv) hk ho).symm

/-! ### A new stream -/

theorem created_okay {w : World} {fuel : Nat} {S : Settings} {s0 : SState} (h : createStream w env fuel (some S) = some (.ok s0)) :
    Okay 0 (XStream.of s0) ∧ (∀ lv ∈ (XStream.of s0).levels, SameStore s0.cfg lv.cfg) := by
  obtain ⟨cfg, cfgs, hc⟩ := createStream_ok h
  have hl : (XStream.of s0).levels = cfgs.map fun c => ⟨c, ⟨WState.init c, 0⟩, none⟩ := by
    unfold XStream.of
    rw [hc.slevels, List.map_map]
    rfl
  have hlv : ∀ lv ∈ (XStream.of s0).levels, lv.cfg ∈ cfgs ∧ lv.w = ⟨WState.init lv.cfg, 0⟩ := by
    intro lv hlv
    rw [hl] at hlv
    obtain ⟨c, hcm, rfl⟩ := List.mem_map.1 hlv
    exact ⟨hcm, rfl⟩
  have nofin : ∀ p, Ev.finalized p ∉ s0.trace := by
    obtain ⟨e1, e2, e3, ht, h1, h2, h3⟩ := hc.docs
    have nd : ∀ {p : Text} {doc : Bytes} {evs : List Ev}, writeDoc env p doc = .ok evs → ∀ q, Ev.finalized q ∉ evs := by
      intro p doc evs hw q
      unfold writeDoc at hw
      split at hw
      · cases hw; simp
      · cases hw; simp
      · simp at hw
      · simp at hw
    intro p hp
    rw [ht] at hp
    simp only [List.mem_append] at hp
    rcases hp with ((hp | hp) | hp) | hp
    · obtain ⟨q, _, he⟩ := List.mem_map.1 hp
      cases he
    · exact nd h1 p hp
    · exact nd h2 p hp
    · split at h3
      · rw [h3] at hp; simp at hp
      · exact nd h3 p hp
  refine ⟨⟨⟨?_, ?_, ?_, ?_⟩, ?_, ?_⟩, ?_⟩
  · rw [hl, List.map_map]
    show Distinct (cfgs.map id)
    rw [List.map_id]
    exact levelConfigs_distinct hc.levels
  · intro lv hm
    rw [(hlv lv hm).2]
    exact ⟨⟨List.nodup_nil, by simp [WState.init]⟩, by simp⟩
  · intro p hp
    exact absurd hp (nofin p)
  · refine List.pairwise_iff_forall_sublist.2 ?_
    intro x y hxy p hp
    subst hp
    exact absurd (hxy.subset (by simp)) (nofin p)
  · intro lv hm
    rw [(hlv lv hm).2]
    exact Nat.zero_le _
  · show s0.offset ≤ s0.buf.length
    rw [hc.offset]; exact Nat.zero_le _
  · intro lv hm
    rw [hc.scfg]
    obtain ⟨i, hi⟩ := List.mem_iff_getElem?.1 (hlv lv hm).1
    exact (levelConfigs_inherits hc.levels hi).1.same

/-- All events of a stream that meets any storage, its calls going on after errors, with or without destroy. -/
theorem history_objects {w : World} {fuel : Nat} {S : Settings} {s0 : SState} {calls : List (Env × Bytes)} {st : XStream}
    {rs : List Status} (h : createStream w env fuel (some S) = some (.ok s0))
    (hb : maxFrames s0.buf.length (calls.map (·.2)) + 1 < 2 ^ 32) (hc : callsX calls (XStream.of s0) = some (st, rs))
    {tr : List Ev} (ht : tr = st.trace ∨ ∃ last ok, destroyX last st = some (tr, ok)) :
    ∃ cfg cfgs, commitSettings S = .ok cfg ∧ levelConfigs fuel S.multiscale cfg = some (.ok cfgs) ∧
      ∀ e ∈ tr, StreamObject cfg cfgs e.path := by
  obtain ⟨cfg, cfgs, hC⟩ := createStream_ok h
  refine ⟨cfg, cfgs, hC.commit, hC.levels, ?_⟩
  obtain ⟨k1, k2⟩ := created_okay h
  obtain ⟨m1, m2⟩ := okay_calls k1 (by show 0 + maxFrames s0.buf.length _ < _; omega) hc
  have hlv : (XStream.of s0).levels.map (·.cfg) = cfgs := by
    unfold XStream.of
    rw [hC.slevels, List.map_map, List.map_map]
    exact List.map_id _
  have hst : ∀ e ∈ st.trace, StreamObject cfg cfgs e.path := by
    obtain ⟨evs, t, o⟩ := m2.own
    intro e he
    rw [t] at he
    rcases List.mem_append.1 he with he | he
    · exact hC.trace.object e he
    · obtain ⟨c, hcm, ho⟩ := o e he
      rw [hlv] at hcm
      exact .inl ⟨c, hcm, ho⟩
  rcases ht with rfl | ⟨last, ok, hd⟩
  · exact hst
  · obtain ⟨_, _, evs, t, o⟩ := closed_destroy m1 (by show 0 + maxFrames s0.buf.length _ + 1 < _; omega) (by
      intro lv hlv
      have : lv.cfg ∈ (XStream.of s0).levels.map (·.cfg) := by
        rw [← m2.cfgs]; exact List.mem_map_of_mem hlv
      obtain ⟨l0, hl0, he⟩ := List.mem_map.1 this
      rw [m2.cfg, ← he]
      exact k2 l0 hl0) hd
    intro e he
    rw [t] at he
    rcases List.mem_append.1 he with he | he
    · exact hst e he
    · have := o e he
      rw [m2.cfgs, hlv, m2.cfg, show (XStream.of s0).cfg = cfg from hC.scfg] at this
      exact this

end Exc
end AZ
