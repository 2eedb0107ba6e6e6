import Verif.Model.S3Store
import Verif.Lemmas.CrashV3
import Verif.Props.S3Sink

/-! # Objects in a bucket after a history of events -/

set_option linter.unusedSimpArgs false

namespace AZ.S3
open Spec

/-- The write events of a list of writes. -/
def wrotes (p : Text) (ws : List (Nat × Bytes)) : List Ev := ws.map fun w => Ev.wrote p w.1 w.2

theorem stepObj_skip {P : Nat} {r : Nat → Reply} {junk : Bytes} {p : Text} {b : Obj} {e : Ev} (h : e.path ≠ p) :
    stepObj P r junk p b e = b := by
  unfold stepObj
  rw [if_pos h]

theorem objAfter_filter (P : Nat) (r : Nat → Reply) (junk : Bytes) (old : Option Bytes) (p : Text) (tr : List Ev) :
    objAfter P r junk old p tr = objAfter P r junk old p (about p tr) := by
  unfold objAfter
  generalize (⟨none, old, true⟩ : Obj) = b
  induction tr generalizing b with
  | nil => rfl
  | cons e es ih =>
    rw [List.foldl_cons]
    by_cases h : e.path = p
    · rw [show about p (e :: es) = e :: about p es from List.filter_cons_of_pos (by simpa using h), List.foldl_cons, ih]
    · rw [show about p (e :: es) = about p es from List.filter_cons_of_neg (by simpa using h), stepObj_skip h, ih]

theorem objAfter_about {P : Nat} {r : Nat → Reply} {junk : Bytes} {old : Option Bytes} {p : Text} {a b : List Ev}
    (h : about p a = about p b) : objAfter P r junk old p a = objAfter P r junk old p b := by
  rw [objAfter_filter, h, ← objAfter_filter]

theorem stepObj_open (P : Nat) (r : Nat → Reply) (junk : Bytes) (p : Text) (b : Obj) :
    stepObj P r junk p b (.opened p) = { b with sink := some (Sink.new junk) } := by
  unfold stepObj
  rw [if_neg (by simp [Ev.path])]

theorem stepObj_drop (P : Nat) (r : Nat → Reply) (junk : Bytes) (p : Text) (b : Obj) :
    stepObj P r junk p b (.dropped p) = { b with sink := none } := by
  unfold stepObj
  rw [if_neg (by simp [Ev.path])]

/-- Writes in order to a healthy server: nothing appears in the bucket yet. -/
theorem objAfter_writes {P : Nat} (hP : 0 < P) {r : Nat → Reply} (h : Spec.Healthy r) {junk : Bytes} {old : Option Bytes} {p : Text}
    {ws : List (Nat × Bytes)} {B : Bytes} {k : Nat} {s : Sink} (hc : Core P B k s) (hb : s.buffered < P)
    (ho : InOrder P B ws) (hn : Bounded (P * (2 ^ 32 - 1)) B ws) :
    ∃ s' k', (wrotes p ws).foldl (stepObj P r junk p) ⟨some s, old, true⟩ = ⟨some s', old, true⟩ ∧
      Core P (ws.foldl overlay B) k' s' ∧ s'.buffered < P := by
  induction ws generalizing B k s with
  | nil => exact ⟨s, k, rfl, hc, hb⟩
  | cons w ws ih =>
    obtain ⟨off, data⟩ := w
    obtain ⟨s1, e1⟩ := writes_healthy hP h hc hb (ws := [(off, data)]) ⟨ho.1, trivial⟩ ⟨hn.1, bounded_head hn.2⟩
    have e2 : write P r (fuelFor data) off data s = some (.returned true s1) := by
      unfold writes at e1
      split at e1
      · rename_i s2 he
        rw [he]
        exact e1
      · exact e1
    obtain ⟨k1, c1, b1⟩ := write_core hP hc hb ho.1 (bounded_head hn.2) e2
    obtain ⟨s', k', g1, g2, g3⟩ := ih c1 b1 ho.2 hn.2
    refine ⟨s', k', ?_, g2, g3⟩
    unfold wrotes at g1 ⊢
    rw [List.map_cons, List.foldl_cons]
    have hst : stepObj P r junk p ⟨some s, old, true⟩ (.wrote p off data) = ⟨some s1, old, true⟩ := by
      unfold stepObj
      rw [if_neg (by simp [Ev.path])]
      dsimp only
      rw [e2]
      dsimp only
      rw [c1.object]
      rfl
    rw [hst]
    exact g1

/-- A sink that is written in order and finalized. -/
theorem objAfter_closed {P : Nat} (hP : 0 < P) {r : Nat → Reply} (h : Spec.Healthy r) {junk : Bytes} (hj : junk.length = P)
    {old : Option Bytes} {p : Text} {ws : List (Nat × Bytes)} (ho : InOrder P [] ws) (hn : Bounded (P * (2 ^ 32 - 1)) [] ws) :
    objAfter P r junk old p (.opened p :: (wrotes p ws ++ [.finalized p])) =
      ⟨none, (if ws.foldl overlay [] = [] then none else some (ws.foldl overlay [])).or old, true⟩ := by
  unfold objAfter
  rw [List.foldl_cons, List.foldl_append, stepObj_open]
  obtain ⟨s', k', g1, g2, g3⟩ := objAfter_writes hP h (junk := junk) (old := old) (p := p) (core_new hj) hP ho hn
  dsimp only
  rw [g1, List.foldl_cons, List.foldl_nil]
  obtain ⟨s2, e2⟩ := flush_healthy h g2
  have hlen : (ws.foldl overlay []).length ≤ P * (2 ^ 32 - 1) := by
    clear g1 g2 g3 ho
    revert hn
    generalize ([] : Bytes) = B
    induction ws generalizing B with
    | nil => intro hn; exact hn
    | cons w ws ih => intro hn; exact ih _ hn.2
  obtain ⟨o1, _⟩ := flush_object hP g2 g3 hlen e2
  unfold stepObj
  rw [if_neg (by simp [Ev.path])]
  dsimp only
  rw [e2]
  dsimp only
  rw [o1]

/-- A sink that is written in order and destroyed without `finalize_sink`: nothing is stored. -/
theorem objAfter_dropped {P : Nat} (hP : 0 < P) {r : Nat → Reply} (h : Spec.Healthy r) {junk : Bytes} (hj : junk.length = P)
    {old : Option Bytes} {p : Text} {ws : List (Nat × Bytes)} (ho : InOrder P [] ws) (hn : Bounded (P * (2 ^ 32 - 1)) [] ws) :
    objAfter P r junk old p (.opened p :: (wrotes p ws ++ [.dropped p])) = ⟨none, old, true⟩ := by
  unfold objAfter
  rw [List.foldl_cons, List.foldl_append, stepObj_open]
  obtain ⟨s', k', g1, g2, g3⟩ := objAfter_writes hP h (junk := junk) (old := old) (p := p) (core_new hj) hP ho hn
  dsimp only
  rw [g1, List.foldl_cons, List.foldl_nil, stepObj_drop]

theorem consecutive_append (off : Nat) (as bs : List Bytes) :
    consecutive off (as ++ bs) = consecutive off as ++ consecutive (off + as.flatten.length) bs := by
  induction as generalizing off with
  | nil => simp [consecutive]
  | cons a as ih =>
    rw [List.cons_append, consecutive, ih, consecutive, List.flatten_cons, List.length_append, List.cons_append,
      Nat.add_assoc]

theorem writesAt_eq (p : Text) (off : Nat) (ps : List (Nat × Bytes)) :
    writesAt p off ps = wrotes p (consecutive off (ps.map Prod.snd)) := by
  induction ps generalizing off with
  | nil => rfl
  | cons x ps ih =>
    obtain ⟨n, b⟩ := x
    rw [writesAt, ih]
    rfl

/-- Consecutive blocks, finalized. -/
theorem objAfter_blocks {P : Nat} (hP : 0 < P) {r : Nat → Reply} (h : Spec.Healthy r) {junk : Bytes} (hj : junk.length = P)
    {old : Option Bytes} {p : Text} {ds : List Bytes} (hne : ds.flatten ≠ []) (hn : ds.flatten.length ≤ P * (2 ^ 32 - 1)) :
    objAfter P r junk old p (.opened p :: (wrotes p (consecutive 0 ds) ++ [.finalized p])) = ⟨none, some ds.flatten, true⟩ := by
  have e := consecutive_fold [] ds
  rw [List.length_nil, List.nil_append] at e
  have k := objAfter_closed hP h hj (old := old) (p := p) (consecutive_inOrder [] ds)
    (consecutive_bounded [] ds (by simpa using hn))
  rw [List.length_nil, e, if_neg hne] at k
  rw [k]
  rfl

/-- Consecutive blocks, dropped. -/
theorem objAfter_blocks_dropped {P : Nat} (hP : 0 < P) {r : Nat → Reply} (h : Spec.Healthy r) {junk : Bytes} (hj : junk.length = P)
    {old : Option Bytes} {p : Text} {ds : List Bytes} (hn : ds.flatten.length ≤ P * (2 ^ 32 - 1)) :
    objAfter P r junk old p (.opened p :: (wrotes p (consecutive 0 ds) ++ [.dropped p])) = ⟨none, old, true⟩ := by
  have k := objAfter_dropped hP h hj (old := old) (p := p) (consecutive_inOrder [] ds)
    (consecutive_bounded [] ds (by simpa using hn))
  rw [List.length_nil] at k
  exact k

end AZ.S3

namespace AZ
open Spec S3

section
variable {env : Env} {cfg : WConfig}

theorem about_none {p : Text} {evs : List Ev} (h : ∀ e ∈ evs, e.path ≠ p) : about p evs = [] := by
  unfold about
  rw [List.filter_eq_nil_iff]
  intro e he
  simpa using h e he

theorem about_all {p : Text} {evs : List Ev} (h : ∀ e ∈ evs, e.path = p) : about p evs = evs := by
  unfold about
  rw [List.filter_eq_self]
  intro e he
  simpa using h e he

theorem about_map_of_inj {f : Text → Ev} (hf : ∀ q, (f q).path = q) {G i : Nat} (hi : i < cfg.dims.shardCount) :
    about (shardPath cfg G i) ((shardPaths cfg G).map f) = [f (shardPath cfg G i)] := by
  have key : ∀ {ps : List Text} {p : Text}, ps.Nodup → p ∈ ps → about p (ps.map f) = [f p] := by
    intro ps p hn hm
    induction ps with
    | nil => cases hm
    | cons q qs ih =>
      rw [List.nodup_cons] at hn
      rw [List.map_cons]
      rcases List.mem_cons.1 hm with rfl | hm
      · rw [show about p (f p :: qs.map f) = f p :: about p (qs.map f) from
          List.filter_cons_of_pos (by simp [hf])]
        congr 1
        apply about_none
        intro e he
        obtain ⟨q, hq, rfl⟩ := List.mem_map.1 he
        rw [hf]
        rintro rfl
        exact hn.1 hq
      · rw [show about p (f q :: qs.map f) = about p (qs.map f) from
          List.filter_cons_of_neg (by
            simp only [hf, decide_eq_true_eq]
            rintro rfl
            exact hn.1 hm)]
        exact ih hn.2 hm
  exact key (shardPaths_nodup cfg G) (List.mem_map.2 ⟨i, List.mem_range.2 hi, rfl⟩)

/-- What a flush does to a shard of its append-shard. -/
theorem about_flush_same (S : Bytes) {G q n i : Nat} {wt roll : Bool} (hi : i < cfg.dims.shardCount) :
    about (shardPath cfg G i) (flushEventsV3 env cfg S G q n wt roll) =
      (if q = 0 then [.opened (shardPath cfg G i)] else []) ++
      (writesAt (shardPath cfg G i) (totalLen (shardParts env cfg S G q i))
        (partsOf env cfg S (G * cfg.dims.append.shardSize + q) i) ++
       if wt then [Ev.wrote (shardPath cfg G i) (totalLen (shardParts env cfg S G (q + 1) i))
        ((tableOf cfg.dims (shardParts env cfg S G (q + 1) i)).flatMap u64le)] else []) ++
      (if roll then [.finalized (shardPath cfg G i)] else []) := by
  unfold flushEventsV3
  rw [about_append, about_append, about_append]
  have h1 : about (shardPath cfg G i) (if q = 0 then (shardPaths cfg G).map Ev.opened else []) =
      if q = 0 then [.opened (shardPath cfg G i)] else [] := by
    split
    · exact about_map_of_inj (fun _ => rfl) hi
    · rfl
  have h2 : about (shardPath cfg G i) (if roll then (shardPaths cfg G).map Ev.finalized else []) =
      if roll then [.finalized (shardPath cfg G i)] else [] := by
    split
    · exact about_map_of_inj (fun _ => rfl) hi
    · rfl
  have h3 : about (shardPath cfg G i) (if wt then metaEvents cfg (G == 0) n else []) = [] := by
    apply about_none
    intro e he
    split at he
    · rw [metaEvents_path he]
      exact fun h => objectPath_ne_meta cfg G _ h.symm
    · cases he
  have h4 : about (shardPath cfg G i) (layerWrites env cfg S G q wt) =
      writesAt (shardPath cfg G i) (totalLen (shardParts env cfg S G q i))
        (partsOf env cfg S (G * cfg.dims.append.shardSize + q) i) ++
       if wt then [Ev.wrote (shardPath cfg G i) (totalLen (shardParts env cfg S G (q + 1) i))
        ((tableOf cfg.dims (shardParts env cfg S G (q + 1) i)).flatMap u64le)] else [] := by
    unfold layerWrites about
    rw [filter_flatMap_unique (g0 := i) _ hi]
    · apply about_all
      intro e he
      rcases List.mem_append.1 he with he | he
      · exact writesAt_path he
      · split at he
        · rw [List.mem_singleton.1 he]; rfl
        · cases he
    · intro i' hi' hne
      apply about_none
      intro e he
      have hp : e.path = shardPath cfg G i' := by
        rcases List.mem_append.1 he with he | he
        · exact writesAt_path he
        · split at he
          · rw [List.mem_singleton.1 he]; rfl
          · cases he
      rw [hp]
      intro h
      exact hne (shardPath_inj hi' hi h).2
  rw [h1, h2, h3, h4, List.append_nil]

/-- The table of a shard as stored. -/
def tableBytes (env : Env) (cfg : WConfig) (S : Bytes) (G j i : Nat) : Bytes :=
  (tableOf cfg.dims (shardParts env cfg S G j i)).flatMap u64le

/-- Everything that happens to a shard during the first `K` layers. -/
theorem shard_about_layers (hk : 0 < cfg.dims.append.shardSize) (S : Bytes) {G i : Nat} (hi : i < cfg.dims.shardCount)
    (K : Nat) : about (shardPath cfg G i) (eventsV3 env cfg S K) =
      if K ≤ G * cfg.dims.append.shardSize then [] else
      .opened (shardPath cfg G i) ::
        (if K < (G + 1) * cfg.dims.append.shardSize then
          writesAt (shardPath cfg G i) 0 (shardParts env cfg S G (K - G * cfg.dims.append.shardSize) i)
        else writesAt (shardPath cfg G i) 0 (shardParts env cfg S G cfg.dims.append.shardSize i) ++
          [.wrote (shardPath cfg G i) (totalLen (shardParts env cfg S G cfg.dims.append.shardSize i))
            (tableBytes env cfg S G cfg.dims.append.shardSize i), .finalized (shardPath cfg G i)]) := by
  have hmul : (G + 1) * cfg.dims.append.shardSize = G * cfg.dims.append.shardSize + cfg.dims.append.shardSize := by
    rw [Nat.add_mul, Nat.one_mul]
  induction K with
  | zero => rw [if_pos (Nat.zero_le _)]; rfl
  | succ K ih =>
    have hstep : eventsV3 env cfg S (K + 1) = eventsV3 env cfg S K ++ layerFlush env cfg S K := by
      rw [eventsV3_flush, eventsV3_flush, List.range_succ, List.flatMap_append]
      simp
    rw [hstep, about_append, ih]
    clear ih hstep
    have hdm := Nat.div_add_mod K cfg.dims.append.shardSize
    have hml := Nat.mod_lt K hk
    unfold layerFlush
    by_cases hG : K / cfg.dims.append.shardSize = G
    · rw [Nat.mul_comm, hG] at hdm
      rw [hG, about_flush_same S hi]
      have hq : (K + 1) % cfg.dims.append.shardSize = 0 ↔ K % cfg.dims.append.shardSize + 1 = cfg.dims.append.shardSize := by
        constructor
        · intro h
          have := layer_last_of hk h
          rw [hG] at this
          omega
        · intro h
          have : K + 1 = (G + 1) * cfg.dims.append.shardSize := by omega
          rw [this, Nat.mul_mod_left]
      rw [if_neg (by omega : ¬ K + 1 ≤ G * cfg.dims.append.shardSize)]
      generalize hqq : K % cfg.dims.append.shardSize = q at *
      by_cases hlast : q + 1 = cfg.dims.append.shardSize
      · have hr : ((K + 1) % cfg.dims.append.shardSize == 0) = true := by rw [hq.2 hlast]; rfl
        rw [hr, if_pos rfl, if_pos rfl, if_neg (by omega : ¬ K + 1 < (G + 1) * cfg.dims.append.shardSize)]
        by_cases h0 : q = 0
        · rw [if_pos (by omega), if_pos h0]
          subst h0
          rw [← hlast, shardParts_succ, shardParts_zero, List.nil_append]
          simp [tableBytes, shardParts_succ, ← hlast]
        · rw [if_neg (by omega), if_pos (by omega), if_neg h0]
          have e : K - G * cfg.dims.append.shardSize = q := by omega
          rw [e, List.nil_append]
          conv => rhs; rw [← hlast]
          rw [shardParts_succ, writesAt_append, Nat.zero_add, hlast]
          unfold tableBytes
          simp [← hlast, shardParts_succ]
      · have hr : ((K + 1) % cfg.dims.append.shardSize == 0) = false := by
          rw [beq_eq_false_iff_ne]
          exact fun h => hlast (hq.1 h)
        rw [hr, if_pos (by omega : K + 1 < (G + 1) * cfg.dims.append.shardSize)]
        have e1 : K + 1 - G * cfg.dims.append.shardSize = q + 1 := by omega
        rw [e1, shardParts_succ]
        by_cases h0 : q = 0
        · rw [if_pos (by omega), if_pos h0]
          subst h0
          simp
        · rw [if_neg (by omega), if_pos (by omega), if_neg h0]
          have e : K - G * cfg.dims.append.shardSize = q := by omega
          rw [e, writesAt_append, Nat.zero_add]
          simp
    · rw [about_flush_other hi hG, List.append_nil]
      have hcase : K < G * cfg.dims.append.shardSize ∨ (G + 1) * cfg.dims.append.shardSize ≤ K := by
        rcases Nat.lt_or_gt_of_ne hG with h | h
        · left
          have := Nat.mul_le_mul_right cfg.dims.append.shardSize h
          rw [Nat.succ_mul, Nat.mul_comm (K / _)] at this
          omega
        · right
          have := Nat.mul_le_mul_right cfg.dims.append.shardSize h
          rw [Nat.mul_comm (K / _)] at this
          simp only [Nat.succ_eq_add_one] at this
          omega
      rcases hcase with h | h
      · rw [if_pos (by omega), if_pos (by omega)]
      · rw [if_neg (by omega), if_neg (by omega), if_neg (by omega), if_neg (by omega)]

/-- Everything that happens to a shard during a complete run: it is opened, the chunks are written one after the other,
then the table unless the stream ended on a chunk boundary inside the shard; it is finalized only if it is full. -/
theorem shard_about_exact (hv : cfg.dims.Valid) (hf : cfg.dims.Fits) (h3 : cfg.dims.FitsV3) (S : Bytes)
    {n G i : Nat} (hi : i < cfg.dims.shardCount) :
    about (shardPath cfg G i) (runEventsV3 env cfg S n) =
      if groups cfg n ≤ G * cfg.dims.append.shardSize then [] else
      .opened (shardPath cfg G i) ::
        (writesAt (shardPath cfg G i) 0 (shardParts env cfg S G (layersIn cfg n G) i) ++
        ((if (G + 1) * cfg.dims.append.shardSize ≤ groups cfg n ∨ n % cfg.dims.framesPerChunk ≠ 0 then
          [.wrote (shardPath cfg G i) (totalLen (shardParts env cfg S G (layersIn cfg n G) i))
            (tableBytes env cfg S G (layersIn cfg n G) i)] else []) ++
        [if (G + 1) * cfg.dims.append.shardSize * cfg.dims.framesPerChunk ≤ n then .finalized (shardPath cfg G i)
          else .dropped (shardPath cfg G i)])) := by
  have hFB := ArrayDims.framesPerChunk_pos hv hf
  have hk : 0 < cfg.dims.append.shardSize := h3.pos cfg.dims.append (by simp [ArrayDims.toList])
  have hmul : (G + 1) * cfg.dims.append.shardSize = G * cfg.dims.append.shardSize + cfg.dims.append.shardSize := by
    rw [Nat.add_mul, Nat.one_mul]
  have hfull : (G + 1) * cfg.dims.append.shardSize * cfg.dims.framesPerChunk ≤ n ↔
      (G + 1) * cfg.dims.append.shardSize ≤ n / cfg.dims.framesPerChunk := (Nat.le_div_iff_mul_le hFB).symm
  simp only [hfull]
  unfold runEventsV3 finishEventsV3 layersIn groups
  rw [about_append, shard_about_layers hk S hi]
  dsimp only
  by_cases h0 : n % cfg.dims.framesPerChunk = 0
  · rw [if_pos h0, ceilDiv_of_dvd hFB h0]
    have hdm := Nat.div_add_mod (n / cfg.dims.framesPerChunk) cfg.dims.append.shardSize
    have hml := Nat.mod_lt (n / cfg.dims.framesPerChunk) hk
    generalize n / cfg.dims.framesPerChunk = L at *
    have hmeta : about (shardPath cfg G i) (if L / cfg.dims.append.shardSize = 0 then [] else
        [Ev.finalized (arrayMetaPath cfg)]) = [] := by
      apply about_none
      intro e he
      split at he
      · cases he
      · rw [List.mem_singleton.1 he]
        exact fun h => objectPath_ne_meta cfg G _ h.symm
    rw [about_append, hmeta, List.nil_append]
    by_cases hG : L / cfg.dims.append.shardSize = G
    · rw [Nat.mul_comm, hG] at hdm
      rw [hG]
      by_cases hq : L % cfg.dims.append.shardSize = 0
      · rw [if_pos hq, if_pos (by omega), if_pos (by omega)]
        rfl
      · have c1 : ¬ L ≤ G * cfg.dims.append.shardSize := by omega
        have c2 : L < (G + 1) * cfg.dims.append.shardSize := by omega
        have c3 : ¬ (G + 1) * cfg.dims.append.shardSize ≤ L := by omega
        rw [if_neg hq, about_map_of_inj (fun _ => rfl) hi, if_neg c1, if_neg c1, if_pos c2, if_neg c3,
          if_neg (by simp [h0, c3]), Nat.min_eq_right (by omega)]
        simp
    · have hother : about (shardPath cfg G i) (if L % cfg.dims.append.shardSize = 0 then [] else
          (shardPaths cfg (L / cfg.dims.append.shardSize)).map Ev.dropped) = [] := by
        apply about_none
        intro e he
        split at he
        · cases he
        · obtain ⟨q, hq, rfl⟩ := List.mem_map.1 he
          obtain ⟨i', hi', rfl⟩ := List.mem_map.1 hq
          exact fun h => hG (shardPath_inj (List.mem_range.1 hi') hi h).1
      rw [hother, List.append_nil]
      have hcase : L < G * cfg.dims.append.shardSize ∨ (G + 1) * cfg.dims.append.shardSize ≤ L := by
        rcases Nat.lt_or_gt_of_ne hG with h | h
        · left
          have := Nat.mul_le_mul_right cfg.dims.append.shardSize h
          rw [Nat.succ_mul, Nat.mul_comm (L / _)] at this
          omega
        · right
          have := Nat.mul_le_mul_right cfg.dims.append.shardSize h
          rw [Nat.mul_comm (L / _)] at this
          simp only [Nat.succ_eq_add_one] at this
          omega
      rcases hcase with h | h
      · rw [if_pos (by omega), if_pos (by omega)]
      · rw [if_neg (by omega), if_neg (by omega), if_neg (by omega), if_pos (by omega), if_pos (by omega),
          Nat.min_eq_left (by omega)]
        simp
  · rw [if_neg h0, ceilDiv_of_not_dvd hFB h0]
    have hdm := Nat.div_add_mod (n / cfg.dims.framesPerChunk) cfg.dims.append.shardSize
    have hml := Nat.mod_lt (n / cfg.dims.framesPerChunk) hk
    generalize n / cfg.dims.framesPerChunk = L at *
    have hmeta : about (shardPath cfg G i) [Ev.finalized (arrayMetaPath cfg)] = [] := by
      apply about_none
      intro e he
      rw [List.mem_singleton.1 he]
      exact fun h => objectPath_ne_meta cfg G _ h.symm
    rw [about_append, about_append, hmeta, List.append_nil]
    by_cases hG : L / cfg.dims.append.shardSize = G
    · rw [Nat.mul_comm, hG] at hdm
      have c1 : ¬ L + 1 ≤ G * cfg.dims.append.shardSize := by omega
      have c3 : ¬ (G + 1) * cfg.dims.append.shardSize ≤ L := by omega
      have c4 : (G + 1) * cfg.dims.append.shardSize ≤ L + 1 ∨ n % cfg.dims.framesPerChunk ≠ 0 := .inr h0
      rw [hG, about_flush_same S hi, about_map_of_inj (fun _ => rfl) hi, if_neg c1, if_neg c3, if_pos c4]
      have e : min cfg.dims.append.shardSize (L + 1 - G * cfg.dims.append.shardSize) =
          L % cfg.dims.append.shardSize + 1 := by omega
      rw [e, if_pos (by omega : L < (G + 1) * cfg.dims.append.shardSize)]
      have e' : L - G * cfg.dims.append.shardSize = L % cfg.dims.append.shardSize := by omega
      rw [e', shardParts_succ, writesAt_append, Nat.zero_add]
      generalize L % cfg.dims.append.shardSize = q at *
      by_cases hq : q = 0
      · rw [if_pos (by omega), if_pos hq]
        subst hq
        simp [tableBytes, shardParts_succ, writesAt]
      · rw [if_neg (by omega), if_neg hq]
        simp [tableBytes, shardParts_succ]
    · have hother : about (shardPath cfg G i) ((shardPaths cfg (L / cfg.dims.append.shardSize)).map Ev.dropped) = [] := by
        apply about_none
        intro e he
        obtain ⟨q, hq, rfl⟩ := List.mem_map.1 he
        obtain ⟨i', hi', rfl⟩ := List.mem_map.1 hq
        exact fun h => hG (shardPath_inj (List.mem_range.1 hi') hi h).1
      rw [about_flush_other hi hG, hother, List.append_nil, List.append_nil]
      have hcase : L < G * cfg.dims.append.shardSize ∨ (G + 1) * cfg.dims.append.shardSize ≤ L := by
        rcases Nat.lt_or_gt_of_ne hG with h | h
        · left
          have := Nat.mul_le_mul_right cfg.dims.append.shardSize h
          rw [Nat.succ_mul, Nat.mul_comm (L / _)] at this
          omega
        · right
          have := Nat.mul_le_mul_right cfg.dims.append.shardSize h
          rw [Nat.mul_comm (L / _)] at this
          simp only [Nat.succ_eq_add_one] at this
          omega
      rcases hcase with h | h
      · rw [if_pos (by omega), if_pos (by omega)]
      · rw [if_neg (by omega), if_neg (by omega), if_neg (by omega), if_pos (.inr h0), if_pos (by omega),
          Nat.min_eq_left (by omega)]
        simp

theorem flushEventsV3_path {S : Bytes} {G q n : Nat} {wt roll : Bool} {e : Ev}
    (he : e ∈ flushEventsV3 env cfg S G q n wt roll) :
    e.path = arrayMetaPath cfg ∨ ∃ i, i < cfg.dims.shardCount ∧ e.path = shardPath cfg G i := by
  unfold flushEventsV3 at he
  have hsh : ∀ {f : Text → Ev}, (∀ q, (f q).path = q) → e ∈ (shardPaths cfg G).map f →
      ∃ i, i < cfg.dims.shardCount ∧ e.path = shardPath cfg G i := by
    intro f hf h
    obtain ⟨p, hp, rfl⟩ := List.mem_map.1 h
    obtain ⟨i, hi, rfl⟩ := List.mem_map.1 hp
    exact ⟨i, List.mem_range.1 hi, hf _⟩
  rcases List.mem_append.1 he with he | he
  · rcases List.mem_append.1 he with he | he
    · rcases List.mem_append.1 he with he | he
      · split at he
        · exact .inr (hsh (f := Ev.opened) (fun _ => rfl) he)
        · cases he
      · right
        unfold layerWrites at he
        obtain ⟨i, hi, he⟩ := List.mem_flatMap.1 he
        refine ⟨i, List.mem_range.1 hi, ?_⟩
        rcases List.mem_append.1 he with he | he
        · exact writesAt_path he
        · split at he
          · rw [List.mem_singleton.1 he]; rfl
          · cases he
    · split at he
      · exact .inr (hsh (f := Ev.finalized) (fun _ => rfl) he)
      · cases he
  · split at he
    · exact .inl (metaEvents_path he)
    · cases he

/-- Every event of a complete run is about the array's document or a shard of its grid. -/
theorem runEventsV3_path {S : Bytes} {n : Nat} {e : Ev} (he : e ∈ runEventsV3 env cfg S n) :
    e.path = arrayMetaPath cfg ∨ ∃ G i, i < cfg.dims.shardCount ∧ e.path = shardPath cfg G i := by
  unfold runEventsV3 at he
  rcases List.mem_append.1 he with he | he
  · unfold eventsV3 at he
    obtain ⟨g, _, he⟩ := List.mem_flatMap.1 he
    rcases flushEventsV3_path he with h | ⟨i, h⟩
    · exact .inl h
    · exact .inr ⟨_, i, h⟩
  · unfold finishEventsV3 at he
    dsimp only at he
    have hdr : ∀ {G : Nat}, e ∈ (shardPaths cfg G).map Ev.dropped → ∃ G i, i < cfg.dims.shardCount ∧ e.path = shardPath cfg G i := by
      intro G h
      obtain ⟨p, hp, rfl⟩ := List.mem_map.1 h
      obtain ⟨i, hi, rfl⟩ := List.mem_map.1 hp
      exact ⟨G, i, List.mem_range.1 hi, rfl⟩
    split at he
    · rcases List.mem_append.1 he with he | he
      · split at he
        · cases he
        · rw [List.mem_singleton.1 he]; exact .inl rfl
      · split at he
        · cases he
        · exact .inr (hdr he)
    · rcases List.mem_append.1 he with he | he
      · rcases List.mem_append.1 he with he | he
        · rcases flushEventsV3_path he with h | ⟨i, h⟩
          · exact .inl h
          · exact .inr ⟨_, i, h⟩
        · rw [List.mem_singleton.1 he]; exact .inl rfl
      · exact .inr (hdr he)

end
end AZ
