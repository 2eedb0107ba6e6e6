import Verif.Lemmas.MetaFile
import Verif.Lemmas.SessionV2
import Verif.Spec.Crash

set_option linter.unusedSimpArgs false

/-! # Crash images -/

namespace AZ
open Spec

theorem stepDisk_other {p : Text} {d : Disk} {e : Ev} (h : e.path ≠ p) : stepDisk p d e = d := if_neg h

theorem foldl_stepDisk_filter (p : Text) (P : Ev → Bool) (hP : ∀ e : Ev, e.path = p → P e = true) (tr : List Ev) (d : Disk) :
    tr.foldl (stepDisk p) d = (tr.filter P).foldl (stepDisk p) d := by
  induction tr generalizing d with
  | nil => rfl
  | cons e es ih =>
    by_cases he : P e = true
    · rw [List.filter_cons_of_pos he, List.foldl_cons, List.foldl_cons, ih]
    · rw [List.filter_cons_of_neg he, List.foldl_cons, stepDisk_other (fun h => he (hP e h)), ih]

theorem disk_within (p : Text) (P : Text → Bool) (hP : P p = true) (tr : List Ev) : disk p tr = disk p (within P tr) :=
  foldl_stepDisk_filter p _ (fun e he => by rw [he]; exact hP) tr _

theorem disk_about (p : Text) (tr : List Ev) : disk p tr = disk p (about p tr) :=
  foldl_stepDisk_filter p _ (fun e he => by simp [he]) tr _

/-- A closed file has only one image. -/
theorem tornImage_closed {p : Text} {tr : List Ev} {b : Bytes} (h : disk p tr = ⟨some b, []⟩) {c : Option Bytes}
    (hc : TornImage p tr c) : c = some b := by
  obtain ⟨k, j, rfl⟩ := hc
  rw [h]
  simp [emit]

theorem wholeImage_torn {p : Text} {tr : List Ev} {c : Option Bytes} (hc : WholeImage p tr c) : TornImage p tr c := by
  obtain ⟨k, rfl⟩ := hc
  refine ⟨k, 0, ?_⟩
  congr 1
  funext b
  unfold emit
  rw [List.foldl_append]
  have key : ∀ (l : List (Nat × Bytes)) (b : Bytes), (l.map fun w => (w.1, w.2.take 0)).foldl
      (fun b w => if w.2.isEmpty then b else pwrite b w.1 w.2) b = b := by
    intro l
    induction l with
    | nil => intro b; rfl
    | cons w ws ih =>
      intro b
      rw [List.map_cons, List.foldl_cons]
      exact ih b
  rw [key]

/-- Images exist. -/
theorem wholeImage_exists (p : Text) (tr : List Ev) : ∃ c, WholeImage p tr c := ⟨_, 0, rfl⟩

/-! ### Metadata: a sequence of documents at offset 0 -/

theorem emit_docs {ds : List Bytes} (hs : ds.Pairwise fun a b => a.length ≤ b.length) (b : Bytes)
    (hb : ∀ d ∈ ds, b.length ≤ d.length) : emit b (ds.map fun d => (0, d)) = (b :: ds).getLast (by simp) := by
  induction ds generalizing b with
  | nil => rfl
  | cons d ds ih =>
    rw [List.pairwise_cons] at hs
    have h1 : emit b ((d :: ds).map fun d => (0, d)) = emit d (ds.map fun d => (0, d)) := by
      unfold emit
      rw [List.map_cons, List.foldl_cons]
      congr 1
      have hl := hb d (by simp)
      dsimp only
      split
      · rename_i he
        simp only [List.isEmpty_iff] at he
        subst he
        simpa using hl
      · unfold pwrite
        simp [List.drop_eq_nil_of_le hl]
    rw [h1, ih hs.2 d hs.1]
    rw [List.getLast_cons (a := b) (by simp)]

theorem disk_docs (p : Text) (ds : List Bytes) (d : Disk) : (ds.map (Ev.wrote p 0)).foldl (stepDisk p) d =
    ⟨d.file, d.pending ++ ds.map fun x => (0, x)⟩ := by
  induction ds generalizing d with
  | nil => simp
  | cons x xs ih =>
    rw [List.map_cons, List.foldl_cons, ih]
    simp [stepDisk, Ev.path]

/-- A visible document is one that was written. -/
theorem inPlace_image {p : Text} {l : List Ev} (h : InPlace p l) {b : Bytes} (hb : WholeImage p l (some b)) (hne : b ≠ []) :
    Ev.wrote p 0 b ∈ l := by
  rcases h with rfl | ⟨ds, hs, h⟩
  · obtain ⟨k, hk⟩ := hb
    simp [disk] at hk
  · have key : ∀ es : List Bytes, es <+: ds → b = ([] :: es).getLast (by simp) → Ev.wrote p 0 b ∈ l := by
      intro es he hb
      have : b ∈ ([] :: es : List Bytes) := by rw [hb]; exact List.getLast_mem _
      rcases List.mem_cons.1 this with h0 | h0
      · exact absurd h0 hne
      · have := he.subset h0
        have hm : Ev.wrote p 0 b ∈ ds.map (Ev.wrote p 0) := List.mem_map_of_mem this
        rcases h with rfl | rfl
        · exact List.mem_cons_of_mem _ hm
        · exact List.mem_append_left _ (List.mem_cons_of_mem _ hm)
    have ho : stepDisk p ⟨none, []⟩ (.opened p) = ⟨some [], []⟩ := by simp [stepDisk, Ev.path]
    obtain ⟨k, hk⟩ := hb
    rcases h with h | h
    · have hd : disk p l = ⟨some [], ds.map fun x => (0, x)⟩ := by
        unfold disk
        rw [h, List.foldl_cons, ho, disk_docs]
        simp
      rw [hd] at hk
      simp only [Option.map_some, Option.some.injEq] at hk
      rw [← List.map_take, emit_docs (hs.sublist (List.take_sublist _ _)) _ (by simp)] at hk
      exact key _ (List.take_prefix _ _) hk
    · have hd : disk p l = ⟨some (emit [] (ds.map fun x => (0, x))), []⟩ := by
        unfold disk
        rw [h, List.cons_append, List.foldl_cons, ho, List.foldl_append, disk_docs]
        simp [stepDisk, Ev.path]
      rw [hd] at hk
      simp only [Option.map_some, Option.some.injEq, List.take_nil] at hk
      rw [emit_docs hs _ (by simp)] at hk
      exact key ds (List.prefix_refl _) hk

/-! ### Prefixes of a sequence of groups -/

theorem list_prefix_cases {α : Type} {t a b : List α} (h : t <+: a ++ b) : t <+: a ∨ ∃ r, t = a ++ r ∧ r <+: b := by
  rcases Nat.le_total t.length a.length with hl | hl
  · left
    exact List.prefix_of_prefix_length_le h (List.prefix_append _ _) hl
  · right
    have := List.prefix_of_prefix_length_le (List.prefix_append a b) h hl
    obtain ⟨r, rfl⟩ := this
    exact ⟨r, rfl, (List.prefix_append_right_inj a).1 h⟩

/-- If a prefix of the groups contains an event of kind `m`, found only in the parts `B g`, then it contains all of the
part `A g` before it and all earlier groups. -/
theorem prefix_groups {α : Type} {A B : Nat → List α} {N : Nat} {t tail : List α}
    (ht : t <+: ((List.range N).flatMap fun g => A g ++ B g) ++ tail) {m : α} (hm : m ∈ t) (hA : ∀ g, m ∉ A g)
    (htail : m ∉ tail) :
    ∃ g, g < N ∧ m ∈ B g ∧ ((List.range g).flatMap fun g => A g ++ B g) ++ A g <+: t := by
  induction N generalizing t tail with
  | zero =>
    simp only [List.range_zero, List.flatMap_nil, List.nil_append] at ht
    exact absurd (ht.subset hm) htail
  | succ N ih =>
    rw [List.range_succ, List.flatMap_append, List.append_assoc] at ht
    rcases list_prefix_cases ht with h | ⟨r, rfl, hr⟩
    · obtain ⟨g, h1, h2, h3⟩ := ih (tail := tail) (h.trans (List.prefix_append _ _)) hm htail
      exact ⟨g, by omega, h2, h3⟩
    · rcases List.mem_append.1 hm with h | h
      · obtain ⟨g, h1, h2, h3⟩ := ih
          (t := ((List.range N).flatMap fun g => A g ++ B g)) (tail := tail) (List.prefix_append _ _) h htail
        exact ⟨g, by omega, h2, h3.trans (List.prefix_append _ _)⟩
      · simp only [List.flatMap_cons, List.flatMap_nil, List.append_nil, List.append_assoc] at hr
        rcases list_prefix_cases hr with hr1 | ⟨r', rfl, hr2⟩
        · exact absurd (hr1.subset h) (hA N)
        · refine ⟨N, by omega, ?_, ?_⟩
          · rcases List.mem_append.1 h with h | h
            · exact absurd h (hA N)
            · rcases List.mem_append.1 (hr2.subset h) with h | h
              · exact h
              · exact absurd h htail
          · rw [← List.append_assoc]
            exact List.prefix_append _ _

theorem prefix_sandwich {α : Type} {a b c : List α} (h1 : a <+: b) (h2 : b <+: c) (h : a = c) : b = c := by
  subst h
  exact (h1.eq_of_length_le h2.length_le).symm

/-! ### Version 2 -/

/-- Contents of a chunk object. -/
def chunkFinal (env : Env) (cfg : WConfig) (S : Bytes) (g c : Nat) : Bytes :=
  storedForm env cfg (Spec.chunkBytes (aShape cfg.dims.tailDims) (cShape cfg.dims.toList) cfg.dims.dtype.bytes S
    (g :: unravel (nShape cfg.dims.tailDims) c))

theorem disk_closed {p : Text} {d : Bytes} {t : List Ev} (h : about p t = [.opened p, .wrote p 0 d, .finalized p]) :
    disk p t = ⟨some d, []⟩ := by
  rw [disk_about, h]
  simp [disk, stepDisk, Ev.path, emit]
  cases d with
  | nil => rfl
  | cons x xs => simp [pwrite]

theorem filter_group_same (env : Env) {cfg : WConfig} (S : Bytes) {n g c : Nat} (hc : c < cfg.dims.chunkCount) :
    (groupV2 env cfg S n g).filter (fun e => e.path = chunkPath cfg g c) =
      [.opened (chunkPath cfg g c), .wrote (chunkPath cfg g c) 0 (chunkFinal env cfg S g c), .finalized (chunkPath cfg g c)] := by
  unfold groupV2
  rw [List.filter_append, filter_data_same env S hc]
  unfold chunkPath
  rw [filter_meta_chunk, List.append_nil]
  rfl

theorem filter_group_other (env : Env) {cfg : WConfig} (S : Bytes) {n g g' c : Nat} (hc : c < cfg.dims.chunkCount) (h : g' ≠ g) :
    (groupV2 env cfg S n g').filter (fun e => e.path = chunkPath cfg g c) = [] := by
  unfold groupV2
  rw [List.filter_append, filter_data_none]
  · unfold chunkPath
    rw [filter_meta_chunk]; rfl
  · intro c' hc' he
    exact h (chunkPath_inj hc' hc he).1

/-- All chunks of the groups before `k` are closed in any prefix of the run that contains the events of those groups. -/
theorem closed_of_prefix (env : Env) {cfg : WConfig} (hv : cfg.dims.Valid) (hf : cfg.dims.Fits) (S : Bytes) {n g k c : Nat}
    (hk : k ≤ groups cfg n) (hg : g < k) (hc : c < cfg.dims.chunkCount) {t : List Ev}
    (h1 : (List.range k).flatMap (groupV2 env cfg S n) <+: t) (h2 : t <+: runEventsV2 env cfg S n) :
    disk (chunkPath cfg g c) t = ⟨some (chunkFinal env cfg S g c), []⟩ := by
  apply disk_closed
  have hfull := filter_run_chunk env hv hf S (n := n) (g := g) (c := c) (by omega) hc
  refine (prefix_sandwich (h1.filter _) (h2.filter _) ?_).trans hfull
  rw [hfull, filter_flatMap_unique (g0 := g) (fun g' _ hne => filter_group_other env S hc hne) hg, filter_group_same env S hc]
  rfl

theorem closed_of_prefix_data (env : Env) {cfg : WConfig} (hv : cfg.dims.Valid) (hf : cfg.dims.Fits) (S : Bytes) {n k c : Nat}
    (hk : k < groups cfg n) (hc : c < cfg.dims.chunkCount) {t : List Ev}
    (h1 : (List.range k).flatMap (groupV2 env cfg S n) ++ dataEventsV2 env cfg S k <+: t) (h2 : t <+: runEventsV2 env cfg S n) :
    disk (chunkPath cfg k c) t = ⟨some (chunkFinal env cfg S k c), []⟩ := by
  apply disk_closed
  have hfull := filter_run_chunk env hv hf S (n := n) (g := k) (c := c) hk hc
  refine (prefix_sandwich (h1.filter _) (h2.filter _) ?_).trans hfull
  rw [hfull, List.filter_append, filter_flatMap_none (fun g' hg' => filter_group_other env S hc (by omega)), filter_data_same env S hc]
  rfl

/-- In a prefix of a version 2 run that contains a document, all chunks the document refers to are closed. -/
theorem v2_array_crash (env : Env) {cfg : WConfig} (hv : cfg.dims.Valid) (hf : cfg.dims.Fits) (S : Bytes) {n : Nat}
    {t : List Ev} (ht : t <+: runEventsV2 env cfg S n) {b : Bytes} (hb : Ev.wrote (arrayMetaPath cfg) 0 b ∈ t) :
    ∃ g, g < groups cfg n ∧ b = metaDoc cfg (ceilDiv (framesAt cfg n g) (prod (aShape cfg.dims.inner))) ∧
      ∀ g' c, g' ≤ g → c < cfg.dims.chunkCount → disk (chunkPath cfg g' c) t = ⟨some (chunkFinal env cfg S g' c), []⟩ := by
  have ht' := ht
  rw [runEventsV2_eq env hv hf] at ht'
  obtain ⟨g, h1, h2, h3⟩ := prefix_groups (A := dataEventsV2 env cfg S)
    (B := fun g => metaEvents cfg (g == 0) (framesAt cfg n g)) ht' hb (by
      intro g hm
      unfold dataEventsV2 at hm
      simp only [List.mem_append, List.mem_map, reduceCtorEq, and_false, exists_false, or_false, false_or] at hm
      obtain ⟨c, _, hm⟩ := hm
      simp only [Ev.wrote.injEq] at hm
      exact objectPath_ne_meta _ _ _ hm.1) (by split <;> simp)
  refine ⟨g, h1, ?_, ?_⟩
  · unfold metaEvents at h2
    rcases List.mem_append.1 h2 with h2 | h2
    · split at h2 <;> simp at h2
    · simp only [List.mem_singleton, Ev.wrote.injEq, true_and] at h2
      exact h2
  · intro g' c hg' hc
    rcases Nat.lt_or_eq_of_le hg' with hlt | rfl
    · exact closed_of_prefix env hv hf S (k := g) (by omega) hlt hc ((List.prefix_append _ _).trans h3) ht
    · exact closed_of_prefix_data env hv hf S h1 hc h3 ht

end AZ
