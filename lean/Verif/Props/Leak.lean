import Verif.Model.Heap
import Verif.Props.Pyramid
import Mathlib.Algebra.BigOperators.Group.List.Basic

set_option linter.unusedSimpArgs false

/-! # C61: memory held by a multiscale stream -/

namespace AZ.Heap

/-- The slots after `n` frames of the level above: each level keeps every second frame. -/
def Flags : List (Option Nat) → Nat → Prop
  | [], _ => True
  | slot :: rest, n => slot.isSome = decide (n % 2 = 1) ∧ Flags rest (n / 2)

/-- Buffers lost by `k` levels when the level above has received `n` frames. -/
def lost : Nat → Nat → Nat
  | 0, _ => 0
  | 1, _ => 0
  | k + 2, n => n / 2 + lost (k + 1) (n / 2)

theorem lost_eq (k n : Nat) : lost k n = ((List.range (k - 1)).map fun i => n / 2 ^ (i + 1)).sum := by
  fun_induction lost k n with
  | case1 => rfl
  | case2 => rfl
  | case3 k n ih =>
      rw [ih]
      simp only [Nat.add_sub_cancel, show k + 2 - 1 = k + 1 from rfl]
      rw [List.range_succ_eq_map, List.map_cons, List.sum_cons, List.map_map]
      congr 1
      apply congrArg
      apply List.map_congr_left
      intro i _
      show n / 2 / 2 ^ (i + 1) = n / 2 ^ (i + 1 + 1)
      rw [Nat.div_div_eq_div_mul, Nat.pow_succ 2 (i + 1), Nat.mul_comm 2]

theorem free_perm {m : Mem} {p : Nat} {l : List Nat} (h : m.live.Perm (p :: l)) :
    ∃ m', m.free p = some m' ∧ m'.live.Perm l := by
  have hp : p ∈ m.live := h.mem_iff.2 List.mem_cons_self
  refine ⟨_, by unfold Mem.free; rw [if_pos hp], ?_⟩
  have := h.erase p
  rwa [List.erase_cons_head] at this

/-- One frame: no invalid release, and exactly which buffers are lost. -/
theorem loop_step (slots : List (Option Nat)) (m : Mem) (extra : List Nat) (n : Nat)
    (hl : m.live.Perm (slots.filterMap id ++ extra)) (hf : Flags slots n) :
    ∃ slots' m' extra', loop slots m = some (slots', m') ∧ m'.live.Perm (slots'.filterMap id ++ extra') ∧
      Flags slots' (n + 1) ∧ slots'.length = slots.length ∧
      extra'.length + lost slots.length n = extra.length + lost slots.length (n + 1) := by
  induction slots generalizing m extra n with
  | nil => exact ⟨[], m, extra, rfl, hl, trivial, rfl, rfl⟩
  | cons slot rest ih =>
    obtain ⟨h1, h2⟩ := hf
    have lost_keep : n % 2 = 0 → lost (rest.length + 1) n = lost (rest.length + 1) (n + 1) := by
      intro he
      have e : (n + 1) / 2 = n / 2 := by omega
      cases rest.length with
      | zero => rfl
      | succ k => rw [lost, lost, e]
    cases slot with
    | none =>
      have he : n % 2 = 0 := by
        have := h1.symm
        simp only [Option.isSome_none, decide_eq_false_iff_not] at this
        omega
      refine ⟨some m.next :: rest, ⟨m.next + 1, m.next :: m.live⟩, extra, rfl, ?_, ⟨?_, ?_⟩, rfl, ?_⟩
      · simp only [List.filterMap_cons, id_eq] at hl ⊢
        exact hl.cons _
      · simp; omega
      · have e : (n + 1) / 2 = n / 2 := by omega
        rw [e]; exact h2
      · rw [List.length_cons, lost_keep he]
    | some old =>
      have ho : n % 2 = 1 := by
        have := h1.symm
        simpa using this
      have e : (n + 1) / 2 = n / 2 + 1 := by omega
      simp only [List.filterMap_cons, id_eq] at hl
      have hl' : (⟨m.next + 1, m.next :: m.live⟩ : Mem).live.Perm (old :: (rest.filterMap id ++ (m.next :: extra))) := by
        show (m.next :: m.live).Perm _
        refine (hl.cons m.next).trans ?_
        rw [List.cons_append]
        refine (List.Perm.swap _ _ _).trans (List.Perm.cons _ ?_)
        exact List.perm_middle.symm
      obtain ⟨m1, f1, l1⟩ := free_perm hl'
      simp only [loop, Mem.alloc, f1]
      cases rest with
      | nil =>
        obtain ⟨m2, f2, l2⟩ := free_perm (m := m1) (p := m.next) (l := extra) l1
        refine ⟨[none], m2, extra, by rw [if_pos (by rfl), f2], l2, ⟨?_, trivial⟩, rfl, rfl⟩
        simp; omega
      | cons r rs =>
        obtain ⟨s', m', x', g1, g2, g3, g4, g5⟩ := ih m1 (m.next :: extra) (n / 2) l1 h2
        refine ⟨none :: s', m', x', by rw [if_neg (by simp), g1], ?_, ⟨?_, ?_⟩, ?_, ?_⟩
        · simpa only [List.filterMap_cons, id_eq] using g2
        · simp; omega
        · rw [e]; exact g3
        · simp [g4]
        · simp only [List.length_cons] at g5 ⊢
          rw [lost, lost, e]
          omega

theorem frames_ok (k n : Nat) : ∃ slots m extra, frames k n = some (slots, m) ∧ m.live.Perm (slots.filterMap id ++ extra) ∧
    Flags slots n ∧ slots.length = k ∧ extra.length = lost k n := by
  induction n with
  | zero =>
    refine ⟨List.replicate k none, ⟨0, []⟩, [], rfl, ?_, ?_, List.length_replicate, ?_⟩
    · have : (List.replicate k (none : Option Nat)).filterMap id = [] := by
        rw [List.filterMap_eq_nil_iff]
        intro a ha
        rw [List.eq_of_mem_replicate ha]
        rfl
      rw [this]
      exact .nil
    · induction k with
      | zero => trivial
      | succ k ih => exact ⟨rfl, ih⟩
    · rw [lost_eq]
      symm
      apply List.sum_eq_zero
      intro x hx
      obtain ⟨i, _, rfl⟩ := List.mem_map.1 hx
      exact Nat.zero_div _
  | succ n ih =>
    obtain ⟨slots, m, extra, h1, h2, h3, h4, h5⟩ := ih
    obtain ⟨s', m', x', g1, g2, g3, g4, g5⟩ := loop_step slots m extra n h2 h3
    refine ⟨s', m', x', ?_, g2, g3, g4.trans h4, ?_⟩
    · rw [frames, h1]; exact g1
    · rw [h4] at g5
      omega

theorem release_ok (slots : List (Option Nat)) (m : Mem) (extra : List Nat) (hl : m.live.Perm (slots.filterMap id ++ extra)) :
    ∃ m', release slots m = some m' ∧ m'.live.Perm extra := by
  induction slots generalizing m with
  | nil => exact ⟨m, rfl, hl⟩
  | cons s rest ih =>
    cases s with
    | none => exact ih m (by simpa using hl)
    | some p =>
      obtain ⟨m1, f1, l1⟩ := free_perm (m := m) (p := p) (l := rest.filterMap id ++ extra) (by simpa using hl)
      obtain ⟨m2, f2, l2⟩ := ih m1 l1
      exact ⟨m2, by rw [release, f1]; exact f2, l2⟩

/-- **C61, the exact count.** A stream with `k` levels below the first that receives `n` frames and is destroyed never releases a
buffer twice, and leaves one buffer allocated for every frame written to a level other than the first and the last: level `i`
receives `n / 2^i` frames. -/
theorem leak_exact (k n : Nat) : ∃ live, session k n = some live ∧
    live.length = ((List.range (k - 1)).map fun i => n / 2 ^ (i + 1)).sum := by
  obtain ⟨slots, m, extra, h1, h2, _, _, h5⟩ := frames_ok k n
  obtain ⟨m', g1, g2⟩ := release_ok slots m extra h2
  refine ⟨m'.live, by simp only [session, h1, g1, Option.map_some], ?_⟩
  rw [g2.length_eq, h5, lost_eq]

/-- **C61 (part).** With at most two levels, or fewer than two frames, destroy leaves nothing allocated. -/
theorem no_leak_partial {k n : Nat} (h : k ≤ 1 ∨ n < 2) : session k n = some [] := by
  obtain ⟨live, h1, h2⟩ := leak_exact k n
  have : live.length = 0 := by
    rw [h2]
    apply List.sum_eq_zero
    intro x hx
    obtain ⟨i, hi, rfl⟩ := List.mem_map.1 hx
    rw [List.mem_range] at hi
    rcases h with h | h
    · omega
    · apply Nat.div_eq_of_lt
      calc n < 2 ^ 1 := h
        _ ≤ 2 ^ (i + 1) := Nat.pow_le_pow_right (by omega) (by omega)
  rw [h1, List.length_eq_zero_iff.1 this]

/-- **C61 (violated).** With three or more levels half a buffer per frame is lost for ever: after `n` frames and destroy at least
`n / 2` frame buffers stay allocated. -/
theorem leak_violated {k : Nat} (hk : 2 ≤ k) (n : Nat) : ∃ live, session k n = some live ∧ n / 2 ≤ live.length := by
  obtain ⟨live, h1, h2⟩ := leak_exact k n
  refine ⟨live, h1, ?_⟩
  rw [h2]
  obtain ⟨j, rfl⟩ : ∃ j, k = j + 2 := ⟨k - 2, by omega⟩
  show n / 2 ≤ ((List.range (j + 1)).map fun i => n / 2 ^ (i + 1)).sum
  rw [List.range_succ_eq_map, List.map_cons, List.sum_cons]
  simp

/-! ### The buffers and the frames -/

/-- The buffers kept are those of the levels that keep a frame. -/
def Matches (lvs : List Level) (slots : List (Option Nat)) : Prop := slots.map Option.isSome = lvs.map fun lv => lv.saved.isSome

/-- The loop over the buffers takes the branches of the loop over the frames. -/
theorem loop_simulates {env : Env} {t : DType} {lvs lvs' : List Level} {data : Bytes} {w h : Nat} {evs : List Ev} {errs : List Text}
    {slots slots' : List (Option Nat)} {m m' : Mem} (hp : pyramidLoop env t lvs data w h = .ok (lvs', evs, errs))
    (hm : Matches lvs slots) (hl : loop slots m = some (slots', m')) : Matches lvs' slots' := by
  induction lvs generalizing lvs' data w h evs errs slots slots' m m' with
  | nil =>
    cases slots with
    | cons s r => simp [Matches] at hm
    | nil =>
      cases hl
      simp only [pyramidLoop, Res.ok.injEq, Prod.mk.injEq] at hp
      rw [← hp.1]
      rfl
  | cons lv rest ih =>
    cases slots with
    | nil => simp [Matches] at hm
    | cons s r =>
      simp only [Matches, List.map_cons, List.cons.injEq] at hm
      obtain ⟨m1, m2⟩ := hm
      rw [pyramidLoop] at hp
      obtain ⟨sc, hs, hp⟩ := Res.bind_eq_ok.1 hp
      split at hp
      · rename_i hn
        rw [hn] at m1
        cases s with
        | some p => cases m1
        | none =>
          simp only [loop, Mem.alloc] at hl
          cases hl
          cases hp
          simp only [Matches, List.map_cons, Option.isSome_some, m2]
      · rename_i px hn
        rw [hn] at m1
        cases s with
        | none => cases m1
        | some p =>
          obtain ⟨⟨lv', k, e1, e2⟩, hw, hp⟩ := Res.bind_eq_ok.1 hp
          obtain ⟨_, _, hp⟩ := Res.bind_eq_ok.1 hp
          obtain ⟨⟨rest', e3, e4⟩, hr, hp⟩ := Res.bind_eq_ok.1 hp
          cases hp
          have hsv : lv'.saved = none := by
            unfold writerStep at hw
            obtain ⟨⟨st', k'⟩, _, hw⟩ := Res.bind_eq_ok.1 hw
            cases hw
            rfl
          simp only [loop, Mem.alloc] at hl
          split at hl
          · cases hl
          · rename_i m1' hf
            split at hl
            · rename_i he
              split at hl
              · cases hl
              · cases hl
                rw [List.isEmpty_iff] at he
                subst he
                have hrest : rest = [] := by
                  have := congrArg List.length m2
                  simpa using this.symm
                subst hrest
                simp only [pyramidLoop, Res.ok.injEq, Prod.mk.injEq] at hr
                rw [← hr.1]
                simp [Matches, hsv]
            · split at hl
              · cases hl
              · rename_i r' m2' hl'
                cases hl
                have := ih hr m2 hl'
                simp only [Matches] at this
                simp only [Matches, List.map_cons, this, hsv, Option.isSome_none]

theorem levels_match {env : Env} {t : DType} {lvs : List Level} {w h : Nat} {fs : List Bytes} {slots : List (Option Nat)}
    (hl : LevelsOk env t lvs w h fs) (hf : Flags slots fs.length) (hn : slots.length = lvs.length) : Matches lvs slots := by
  induction lvs generalizing w h fs slots with
  | nil =>
    rw [List.length_nil, List.length_eq_zero_iff] at hn
    subst hn
    rfl
  | cons lv rest ih =>
    cases slots with
    | nil => simp at hn
    | cons s r =>
      obtain ⟨_, h2, h3⟩ := hl
      obtain ⟨f1, f2⟩ := hf
      have := ih h3 (slots := r) (by rw [nextFrames_length]; exact f2) (by simpa using hn)
      simp only [Matches] at this
      simp only [Matches, List.map_cons, this, f1, h2]
      congr 1
      by_cases he : fs.length % 2 = 0
      · rw [if_pos he]; simp; omega
      · rw [if_neg he]; simp; omega

/-- `frames` is what a stream does: after any calls of append that carry whole frames, the levels below the first that keep a
frame are those for which `frames` keeps a buffer. -/
theorem frames_of_stream {w : World} {env : Env} {fuel : Nat} {s : Settings} {cfg : WConfig} {cfgs : List WConfig} {st0 st : SState}
    {calls : List (List Bytes)} {ns : List Nat} (h : Setup w fuel s cfg cfgs)
    (hc : createStream w env fuel (some s) = some (.ok st0)) (hf : ∀ c ∈ calls, ∀ f ∈ c, f.length = bytesOfFrame cfg.dims)
    (ha : appends env (calls.map List.flatten) st0 = .ok (st, ns)) :
    ∃ slots m, frames (cfgs.length - 1) calls.flatten.length = some (slots, m) ∧ Matches st.levels.tail slots := by
  obtain ⟨cfg', cfgs', hcr⟩ := createStream_ok hc
  have e1 := hcr.commit
  rw [h.commit] at e1
  cases e1
  have e2 := hcr.levels
  rw [h.levels] at e2
  cases e2
  have hF : 0 < bytesOfFrame cfg.dims := by
    rw [ArrayDims.bytesOfFrame_eq h.dimsValid h.fits]
    exact ArrayDims.frameBytes_pos h.dimsValid h.fits
  have h3 := (appends_aligned_ok hF calls hf hcr.aligned ha).1
  have hff : ∀ f ∈ calls.flatten, f.length = bytesOfFrame cfg.dims := by
    intro f hfm
    obtain ⟨c, hcm, hfc⟩ := List.mem_flatten.1 hfm
    exact hf c hcm f hfc
  obtain ⟨l0, rest, r1, _, _, r4⟩ := (foldFrames_ok hF calls.flatten (gs := []) hff hcr.aligned h3 hcr.streamOk).level0
  obtain ⟨slots, m, _, g1, _, g3, g4, _⟩ := frames_ok (cfgs.length - 1) calls.flatten.length
  refine ⟨slots, m, g1, ?_⟩
  rw [r1]
  refine levels_match r4 (by simpa using g3) ?_
  have hlen : st.levels.length = cfgs.length := by
    have := congrArg List.length (foldFrames_keeps h3).cfgs
    rw [hcr.slevels] at this
    simpa using this
  rw [r1] at hlen
  rw [g4, ← hlen]
  rfl

/-- Accepted settings whose stream has three levels. -/
example : ∃ cfgs, Setup Sample.world 9 Sample.settings8 Sample.cfg8 cfgs ∧ ∃ live, session (cfgs.length - 1) 1000 = some live ∧
    500 ≤ live.length := by
  obtain ⟨cfgs, h1, h2⟩ := Sample.setup8
  refine ⟨cfgs, h1, ?_⟩
  rw [h2]
  exact leak_violated (by omega) 1000

/-- Non-vacuity: three levels, six frames, three frame buffers lost. -/
example : (session 2 6).map List.length = some 3 := by decide

end AZ.Heap
