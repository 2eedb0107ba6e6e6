import Verif.Lemmas.S3
import Verif.Model.Connections
import Mathlib.Data.List.Perm.Basic
import Mathlib.Data.List.Nodup

/-! # C31, C33, C51: objects in a bucket and the connections used to store them -/

set_option linter.unusedSimpArgs false

namespace AZ.S3
open Spec

/-! ### C31 -/

/-- Contiguous writes of the blocks `ds`, the first one at `off`. -/
def consecutive (off : Nat) : List Bytes → List (Nat × Bytes)
  | [] => []
  | d :: ds => (off, d) :: consecutive (off + d.length) ds

theorem overlay_end (B d : Bytes) : overlay B (B.length, d) = B ++ d := by
  unfold overlay
  dsimp only
  split
  · rename_i h
    rw [List.isEmpty_iff.1 h, List.append_nil]
  · rw [List.take_length]

theorem consecutive_fold (B : Bytes) (ds : List Bytes) :
    (consecutive B.length ds).foldl overlay B = B ++ ds.flatten := by
  induction ds generalizing B with
  | nil => simp [consecutive]
  | cons d ds ih =>
    rw [consecutive, List.foldl_cons, overlay_end, ← List.length_append, ih]
    simp

theorem consecutive_inOrder {P : Nat} (B : Bytes) (ds : List Bytes) : InOrder P B (consecutive B.length ds) := by
  induction ds generalizing B with
  | nil => trivial
  | cons d ds ih =>
    refine ⟨fun _ => ⟨Nat.div_mul_le_self _ _, Nat.le_refl _⟩, ?_⟩
    rw [overlay_end, ← List.length_append]
    exact ih _

theorem consecutive_bounded {n : Nat} (B : Bytes) (ds : List Bytes) (h : B.length + ds.flatten.length ≤ n) :
    Bounded n B (consecutive B.length ds) := by
  induction ds generalizing B with
  | nil => simpa [consecutive, Bounded] using h
  | cons d ds ih =>
    rw [List.flatten_cons, List.length_append] at h
    refine ⟨by omega, ?_⟩
    rw [overlay_end, ← List.length_append]
    exact ih _ (by rw [List.length_append]; omega)

theorem partsOf_shape {P : Nat} (hP : 0 < P) (n : Nat) :
    (partsOf P n).map Prod.fst = List.range' 1 (partsOf P n).length ∧ (∀ p ∈ (partsOf P n).dropLast, p.2 = P) ∧
      ∀ p ∈ partsOf P n, 0 < p.2 ∧ p.2 ≤ P := by
  unfold partsOf
  split
  · simp
  · split
    · simp only [List.append_nil, List.map_map, List.length_map, List.length_range']
      refine ⟨?_, ?_, ?_⟩
      · have : (Prod.fst ∘ fun i => (i, P)) = (id : Nat → Nat) := rfl
        rw [this, List.map_id]
      · intro p hp
        obtain ⟨i, _, rfl⟩ := List.mem_map.1 (List.dropLast_subset _ hp)
        rfl
      · intro p hp
        obtain ⟨i, _, rfl⟩ := List.mem_map.1 hp
        exact ⟨hP, Nat.le_refl _⟩
    · rename_i hm
      refine ⟨?_, ?_, ?_⟩
      · rw [List.map_append, List.map_map, List.length_append, List.length_map, List.length_range']
        have : (Prod.fst ∘ fun i => (i, P)) = (id : Nat → Nat) := rfl
        rw [this, List.map_id]
        simp only [List.map_cons, List.map_nil, List.length_singleton]
        rw [List.range'_concat]
        simp [Nat.add_comm]
      · rw [List.dropLast_concat]
        intro p hp
        obtain ⟨i, _, rfl⟩ := List.mem_map.1 hp
        rfl
      · intro p hp
        rcases List.mem_append.1 hp with hp | hp
        · obtain ⟨i, _, rfl⟩ := List.mem_map.1 hp
          exact ⟨hP, Nat.le_refl _⟩
        · rw [List.mem_singleton] at hp
          subst hp
          exact ⟨Nat.pos_of_ne_zero hm, (Nat.mod_lt _ hP).le⟩

/-- **C31.** Whatever the server answers: if contiguous writes of any blocks `ds` and the finalization report success,
the object consists of exactly the written bytes in order (no object if nothing was written); the parts are numbered
1, 2, 3, ..; every part except the last has the part size; no part is empty. (At most 2^32 - 1 parts, the range of the
part numbers.) -/
theorem s3_object_exact {P : Nat} (hP : 0 < P) {r : Nat → Reply} {junk : Bytes} (hj : junk.length = P) {ds : List Bytes}
    {s : Sink} (hn : ds.flatten.length ≤ P * (2 ^ 32 - 1))
    (hr : session P r junk (consecutive 0 ds) = some (.returned true s)) :
    object (exchange s.log) = (if ds.flatten = [] then none else some ds.flatten) ∧
    (partSizes (exchange s.log)).map Prod.fst = List.range' 1 (partSizes (exchange s.log)).length ∧
    (∀ p ∈ (partSizes (exchange s.log)).dropLast, p.2 = P) ∧ (∀ p ∈ partSizes (exchange s.log), 0 < p.2 ∧ p.2 ≤ P) := by
  have e := consecutive_fold [] ds
  obtain ⟨h1, h2⟩ := session_object hP hj (consecutive_inOrder [] ds) (consecutive_bounded [] ds (by simpa using hn)) hr
  rw [List.length_nil, List.nil_append] at e
  rw [List.length_nil, e] at h1 h2
  rw [h2]
  exact ⟨h1, partsOf_shape hP _⟩

/-- **C31.** When the server confirms every request, all writes and the finalization do report success. -/
theorem s3_healthy_succeeds {P : Nat} (hP : 0 < P) {r : Nat → Reply} (h : Healthy r) {junk : Bytes} (hj : junk.length = P)
    {ds : List Bytes} (hn : ds.flatten.length ≤ P * (2 ^ 32 - 1)) :
    ∃ s, session P r junk (consecutive 0 ds) = some (.returned true s) :=
  session_healthy hP h hj (consecutive_inOrder [] ds) (consecutive_bounded [] ds (by simpa using hn))

theorem rewrites_ok {P n : Nat} (hPn : P ≤ n) (ds : List Bytes) {B : Bytes} (hB : B.length < P)
    (h : ∀ d ∈ ds, d.length < P) : InOrder P B (ds.map fun d => (0, d)) ∧ Bounded n B (ds.map fun d => (0, d)) := by
  induction ds generalizing B with
  | nil =>
    refine ⟨trivial, ?_⟩
    show B.length ≤ n
    omega
  | cons d ds ih =>
    have hd := h d (by simp)
    have hov : (overlay B (0, d)).length < P := by
      unfold overlay
      dsimp only
      split
      · exact hB
      · simpa using hd
    obtain ⟨i1, i2⟩ := ih hov fun x hx => h x (by simp [hx])
    refine ⟨⟨fun _ => ⟨?_, Nat.zero_le _⟩, i1⟩, ⟨by omega, i2⟩⟩
    rw [Nat.div_eq_of_lt hB, Nat.zero_mul]

/-- Documents are rewritten from the beginning (`write(0, ..)`): a document shorter than a part replaces the whole former
one, so that the object is the last document. -/
theorem s3_rewritten_document {P : Nat} {r : Nat → Reply} (hr : Healthy r) {junk : Bytes} (hj : junk.length = P)
    {ds : List Bytes} {d : Bytes} (hd : d ≠ []) (hlt : d.length < P) (h : ∀ d ∈ ds, d.length < P) :
    ∃ s, session P r junk ((ds ++ [d]).map fun d => (0, d)) = some (.returned true s) ∧ object (exchange s.log) = some d := by
  have hP : 0 < P := by omega
  have hPn : P ≤ P * (2 ^ 32 - 1) := Nat.le_mul_of_pos_right _ (by decide)
  have h' : ∀ x ∈ ds ++ [d], x.length < P := by
    intro x hx
    rcases List.mem_append.1 hx with hx | hx
    · exact h x hx
    · rw [List.mem_singleton] at hx
      rw [hx]; exact hlt
  obtain ⟨i1, i2⟩ := rewrites_ok hPn (ds ++ [d]) (B := []) hP h'
  obtain ⟨s, e⟩ := session_healthy hP hr hj i1 i2
  refine ⟨s, e, ?_⟩
  obtain ⟨o, _⟩ := session_object hP hj i1 i2 e
  rw [o, List.map_append, List.foldl_append]
  have : ∀ B : Bytes, overlay B (0, d) = d := by
    intro B
    unfold overlay
    dsimp only
    rw [if_neg (by simpa using hd)]
    simp
  simp only [List.map_cons, List.map_nil, List.foldl_cons, List.foldl_nil, this, hd, if_false]

/-- No write starts behind the end of what was written before. -/
def NoGaps : Bytes → List (Nat × Bytes) → Prop
  | _, [] => True
  | B, w :: ws => (w.2 ≠ [] → w.1 ≤ B.length) ∧ NoGaps (if w.2 = [] then B else B.take w.1 ++ w.2) ws

theorem overlay_eq (B : Bytes) (w : Nat × Bytes) : overlay B w = if w.2 = [] then B else B.take w.1 ++ w.2 := by
  unfold overlay
  simp only [List.isEmpty_iff]

theorem writes_inOrder {P : Nat} (hP : 0 < P) {r : Nat → Reply} {ws : List (Nat × Bytes)} {B : Bytes} {k : Nat} {s s' : Sink}
    (h : Core P B k s) (hb : s.buffered < P) (hg : NoGaps B ws) (hn : Bounded (P * (2 ^ 32 - 1)) B ws)
    (hr : writes P r ws s = some (.returned true s')) : InOrder P B ws := by
  induction ws generalizing B k s with
  | nil => trivial
  | cons w ws ih =>
    obtain ⟨off, data⟩ := w
    unfold writes at hr
    split at hr
    · rename_i s2 he
      have h0 : data ≠ [] → B.length / P * P ≤ off ∧ off ≤ B.length := by
        intro hd
        refine ⟨?_, hg.1 hd⟩
        have he' := he
        unfold write at he'
        rw [if_neg (by simpa using hd)] at he'
        split at he'
        · simp at he'
        · rename_i hoff
          rw [core_count h hb, Nat.mul_comm, ← h.flushed]
          omega
      obtain ⟨k2, c2, b2⟩ := write_core hP h hb h0 (bounded_head hn.2) he
      have hg2 := hg.2
      rw [← overlay_eq] at hg2
      exact ⟨h0, ih c2 b2 hg2 hn.2 hr⟩
    · rename_i o hne
      exfalso
      exact hne _ hr

/-- **C31, arbitrary offsets.** Writes at any offsets, none leaving a gap; a write replaces everything from its offset on. Whatever
the server answers: if all writes and the finalization report success, the object is the result of the writes. In particular a
write into a part that has already been uploaded is never silently dropped. -/
theorem s3_writes_exact {P : Nat} (hP : 0 < P) {r : Nat → Reply} {junk : Bytes} (hj : junk.length = P)
    {ws : List (Nat × Bytes)} {s : Sink} (hg : NoGaps [] ws) (hn : Bounded (P * (2 ^ 32 - 1)) [] ws)
    (hr : session P r junk ws = some (.returned true s)) {B : Bytes}
    (hB : B = ws.foldl (fun B w => if w.2 = [] then B else B.take w.1 ++ w.2) []) :
    object (exchange s.log) = if B = [] then none else some B := by
  have hf : (fun (B : Bytes) (w : Nat × Bytes) => if w.2 = [] then B else B.take w.1 ++ w.2) = overlay := by
    funext B w; exact (overlay_eq B w).symm
  have ho : InOrder P [] ws := by
    unfold session at hr
    split at hr
    · rename_i s2 he
      exact writes_inOrder hP (core_new hj) hP hg hn he
    · rename_i o hne
      exfalso
      exact hne _ hr
  rw [hB, hf]
  exact (session_object hP hj ho hn hr).1

/-- Rewriting bytes of a part that has been uploaded is refused. -/
theorem s3_rewrite_refused {P : Nat} {r : Nat → Reply} {fuel off : Nat} {data : Bytes} {s : Sink} (hd : data ≠ [])
    (h : off < s.flushed) : write P r fuel off data s = some (.returned false s) := by
  unfold write
  rw [if_neg (by simpa using hd), if_pos h]

/-- Parts of two bytes; the third write rewrites the end of the second one: `s3_writes_exact` applies. Going back into the
first part is refused. -/
example : (∃ s, session 2 (fun _ => .confirmed "t".toList) [7, 7] [(0, [1, 2]), (2, [3]), (2, [4, 5])] = some (.returned true s) ∧
      object (exchange s.log) = some [1, 2, 4, 5]) ∧ NoGaps [] [(0, [1, 2]), (2, [3]), (2, [4, 5])] ∧
    Bounded (2 * (2 ^ 32 - 1)) [] [(0, [1, 2]), (2, [3]), (2, [4, 5])] := by
  refine ⟨⟨⟨[4, 5], 0, 4, some ⟨"t".toList, [(1, "t".toList), (2, "t".toList)]⟩, 4, _⟩, rfl, rfl⟩, ?_, ?_⟩
  · simp [NoGaps]
  · simp [Bounded, overlay]

/-- Parts of two bytes, five bytes in three blocks: three parts. -/
example : ∃ s, session 2 (fun _ => .confirmed "t".toList) [7, 7] (consecutive 0 [[1], [2, 3, 4], [5]]) = some (.returned true s) ∧
    object (exchange s.log) = some [1, 2, 3, 4, 5] ∧ partSizes (exchange s.log) = [(1, 2), (2, 2), (3, 1)] :=
  ⟨⟨[5, 4], 0, 5, some ⟨"t".toList, [(1, "t".toList), (2, "t".toList), (3, "t".toList)]⟩, 5, _⟩, rfl, rfl, rfl⟩

/-- The hypotheses of `s3_healthy_succeeds` at the real part size: twelve million bytes. -/
example (junk A B : Bytes) (hj : junk.length = partSize) (hA : A.length = 7000000) (hB : B.length = 5000000) :
    ∃ s, session partSize (fun _ => .confirmed "t".toList) junk (consecutive 0 [A, B]) = some (.returned true s) ∧
    object (exchange s.log) = some (A ++ B) := by
  have hl : ([A, B].flatten).length = 12000000 := by
    rw [List.flatten_cons, List.flatten_cons, List.flatten_nil, List.append_nil, List.length_append, hA, hB]
  have hn : ([A, B].flatten).length ≤ partSize * (2 ^ 32 - 1) := by
    rw [hl]
    decide
  have hP : 0 < partSize := by decide
  obtain ⟨s, e⟩ := s3_healthy_succeeds hP (r := fun _ => .confirmed "t".toList) (fun _ => ⟨_, by decide, rfl⟩)
    hj hn
  refine ⟨s, e, ?_⟩
  rw [(s3_object_exact hP hj hn e).1, if_neg]
  · rw [List.flatten_cons, List.flatten_cons, List.flatten_nil, List.append_nil]
  · intro h
    rw [h, List.length_nil] at hl
    omega

/-! ### C51: failed parts -/

/-- **C51 is violated by the code.** An object of at least two parts: the server confirms the upload and the first part
and refuses the second. The write reports the failure, but the finalization then completes the upload with the first part
only and reports success: a shortened object exists. -/
theorem s3_failed_part_violated {P : Nat} (hP : 0 < P) {junk data : Bytes} (hj : junk.length = P) (hd : 2 * P ≤ data.length) :
    ∃ (r : Nat → Reply) (s1 s2 : Sink), write P r (fuelFor data) 0 data (Sink.new junk) = some (.returned false s1) ∧
      flush r s1 = .returned true s2 ∧ object (exchange s2.log) = some (data.take P) ∧ data.take P ≠ data := by
  refine ⟨fun n => if n = 2 then .refused else .confirmed "t".toList, ?_⟩
  generalize hr : (fun n => if n = 2 then Reply.refused else Reply.confirmed "t".toList) = r
  have r0 : r 0 = .confirmed "t".toList := by rw [← hr]; rfl
  have r1 : r 1 = .confirmed "t".toList := by rw [← hr]; rfl
  have r2 : r 2 = .refused := by rw [← hr]; rfl
  have r3 : r 3 = .confirmed "t".toList := by rw [← hr]; rfl
  have ht : "t".toList ≠ [] := by decide
  generalize "t".toList = t at *
  clear hr
  obtain ⟨n, hn⟩ : ∃ n, fuelFor data = n + 2 := ⟨data.length - 1, by unfold fuelFor; omega⟩
  have hne : data ≠ [] := by
    rintro rfl
    simp at hd
    omega
  have hne2 : data.drop P ≠ [] := by
    intro h
    have := congrArg List.length h
    rw [List.length_drop] at this
    simp at this
    omega
  have ht2 : t.isEmpty = false := by simpa using ht
  have hlen : data.length ≥ P := by omega
  have e1 : ∀ B : Bytes, B.length = P → (pwrite B 0 (data.take P)) = data.take P := by
    intro B hB
    unfold pwrite
    rw [List.length_take, Nat.min_eq_left hlen]
    simp [hB]
  have e2 : ∀ B : Bytes, B.length = P → (pwrite B 0 ((data.drop P).take P)) = (data.drop P).take P := by
    intro B hB
    unfold pwrite
    rw [List.length_take, List.length_drop, Nat.min_eq_left (by omega)]
    simp [hB]
  have hlt : (data.take P).length = P := by rw [List.length_take]; omega
  have step2 : ∀ s : Sink, s.buffer.length = P → s.buffered = 0 → s.requests = 2 → ∀ u, s.upload = some u →
      writeLoop P r (n + 1) (data.drop P) s = some (.returned false { s with
        buffer := (data.drop P).take P
        requests := 3
        flushed := s.flushed + P
        log := s.log ++ [.get, .sent (.part u.id (u32 (u32 u.parts.length + 1)) ((data.drop P).take P)) .refused, .giveBack] }) := by
    intro s hs hb hq u hu
    have hm : min (data.drop P).length (P - s.buffered) = P := by rw [List.length_drop, hb]; omega
    rw [writeLoop_step hne2 (by omega), hm, hb, Nat.zero_add, if_pos rfl, e2 _ hs]
    have hfp : flushPart r { s with
        buffer := (data.drop P).take P
        buffered := P } = .returned false { s with
        buffer := (data.drop P).take P
        requests := 3
        flushed := s.flushed + P
        log := s.log ++ [.get, .sent (.part u.id (u32 (u32 u.parts.length + 1)) ((data.drop P).take P)) .refused, .giveBack] } := by
      unfold flushPart
      dsimp only
      rw [if_neg (by omega), hu]
      dsimp only
      unfold uploadPart
      dsimp only
      simp only [request, hq, r2, Reply.good]
      simp [List.take_of_length_le, hu, hb]
    rw [hfp]
    simp [hb]
  have step1 : writeLoop P r (n + 2) data (Sink.new junk) = writeLoop P r (n + 1) (data.drop P)
      ⟨data.take P, 0, P, some ⟨t, [(1, t)]⟩, 2, [.get, .sent .create (.confirmed t), .giveBack,
        .get, .sent (.part t 1 (data.take P)) (.confirmed t), .giveBack]⟩ := by
      have hm : min data.length (P - (Sink.new junk).buffered) = P := by dsimp only [Sink.new]; omega
      rw [writeLoop_step hne (by dsimp only [Sink.new]; omega), hm]
      have hb0 : (Sink.new junk).buffered = 0 := rfl
      rw [hb0, Nat.zero_add, if_pos rfl, show (Sink.new junk).buffer = junk from rfl, e1 _ hj]
      dsimp only [Sink.new]
      have hfp : flushPart r ⟨data.take P, P, 0, none, 0, []⟩ = .returned true ⟨data.take P, 0, P, some ⟨t, [(1, t)]⟩, 2,
          [.get, .sent .create (.confirmed t), .giveBack, .get, .sent (.part t 1 (data.take P)) (.confirmed t), .giveBack]⟩ := by
        unfold flushPart
        dsimp only
        rw [if_neg (by omega)]
        unfold createUpload
        simp only [request, r0, Reply.good, ht2, Bool.not_false, if_true, Reply.tag, Option.getD_some, List.nil_append]
        unfold uploadPart
        simp only [request, r1, Reply.good, ht2, Bool.not_false, if_true, Reply.tag, List.length_nil]
        simp [List.take_of_length_le, hlt, u32]
      rw [hfp]
  refine ⟨⟨(data.drop P).take P, 0, P + P, some ⟨t, [(1, t)]⟩, 3, [.get, .sent .create (.confirmed t), .giveBack,
        .get, .sent (.part t 1 (data.take P)) (.confirmed t), .giveBack,
        .get, .sent (.part t 2 ((data.drop P).take P)) .refused, .giveBack]⟩,
    ⟨(data.drop P).take P, 0, P + P, some ⟨t, [(1, t)]⟩, 4, [.get, .sent .create (.confirmed t), .giveBack,
        .get, .sent (.part t 1 (data.take P)) (.confirmed t), .giveBack,
        .get, .sent (.part t 2 ((data.drop P).take P)) .refused, .giveBack,
        .get, .sent (.complete t [(1, t)]) (.confirmed t), .giveBack]⟩, ?_, ?_, ?_, ?_⟩
  · unfold write
    rw [if_neg (by simpa using hne)]
    have : (Sink.new junk).flushed = 0 := rfl
    rw [this, if_neg (by omega), hn, Nat.sub_zero]
    have e : ({ Sink.new junk with buffered := 0 } : Sink) = Sink.new junk := rfl
    have := step1.trans (step2 _ hlt rfl rfl _ rfl)
    exact this
  · unfold flush
    dsimp only
    rw [if_pos rfl]
    dsimp only
    simp only [Option.getD_some]
    unfold completeUpload
    simp only [ht2, List.isEmpty_cons, Bool.or_self, Bool.false_eq_true, if_false, request, r3]
    simp
  · show object [(.create, .confirmed t), (.part t 1 (data.take P), .confirmed t), (.part t 2 ((data.drop P).take P), .refused),
      (.complete t [(1, t)], .confirmed t)] = _
    simp [object, objectFrom, objectOf, partData, partOf]
  · intro h
    have := congrArg List.length h
    rw [hlt] at this
    omega

end AZ.S3
