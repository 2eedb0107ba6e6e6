import Verif.Spec.S3
import Mathlib.Tactic.Linarith
import Mathlib.Data.List.Basic

/-! # The S3 sink -/

set_option linter.unusedSimpArgs false

namespace AZ.S3
open Spec

/-! ### The server -/

theorem exchange_append (a b : List Act) : exchange (a ++ b) = exchange a ++ exchange b := by
  simp [exchange, List.filterMap_append]

theorem partSizes_append (a b : List (Req × Reply)) : partSizes (a ++ b) = partSizes a ++ partSizes b := by
  simp [partSizes, List.filterMap_append]

theorem partData_append (id : Text) (n : Nat) (es fs : List (Req × Reply)) :
    partData id n (es ++ fs) = (partData id n fs).or (partData id n es) := by
  induction es with
  | nil => simp [partData]
  | cons e es ih => rw [List.cons_append, partData, ih, partData, Option.or_assoc]

theorem objectFrom_append (b es fs : List (Req × Reply)) :
    objectFrom b (es ++ fs) = (objectFrom (b ++ es) fs).or (objectFrom b es) := by
  induction es generalizing b with
  | nil => simp [objectFrom, objectOf]
  | cons e es ih =>
    rw [List.cons_append, objectFrom, ih, objectFrom, Option.or_assoc, List.append_assoc]
    rfl

theorem object_append (es fs : List (Req × Reply)) : object (es ++ fs) = (objectFrom es fs).or (object es) := by
  unfold object
  rw [objectFrom_append]
  rfl

theorem good_iff {a : Reply} : a.good = true ↔ ∃ t, t ≠ [] ∧ a = .confirmed t := by
  cases a with
  | confirmed t => cases t <;> simp [Reply.good]
  | refused => simp [Reply.good]
  | threw => simp [Reply.good]

/-! ### Requests -/

theorem request_fst (r : Nat → Reply) (q : Req) (k : Reply → Bool) (s : Sink) : (request r q k s).1 = r s.requests := rfl

theorem exchange_request (r : Nat → Reply) (q : Req) (k : Reply → Bool) (s : Sink) :
    exchange (request r q k s).2.log = exchange s.log ++ [(q, r s.requests)] := by
  unfold request
  dsimp only
  rw [exchange_append]
  congr 1
  cases k (r s.requests) <;> rfl

/-- The bytes `B` have been handed to the sink: `k` full parts are uploaded, the rest is in the buffer. -/
structure Core (P : Nat) (B : Bytes) (k : Nat) (s : Sink) : Prop where
  size : s.buffer.length = P
  flushed : s.flushed = P * k
  le : P * k ≤ B.length
  buffered : s.buffered = B.length - P * k
  fits : s.buffered ≤ P
  rest : s.buffer.take s.buffered = B.drop (P * k)
  none : k = 0 → s.upload = .none
  some : 0 < k → ∃ u, s.upload = .some u ∧ u.id ≠ [] ∧ u.parts.map Prod.fst = List.range' 1 k ∧
    ∀ j, j < k → partData u.id (j + 1) (exchange s.log) = .some ((B.drop (P * j)).take P)
  object : object (exchange s.log) = .none
  sizes : partSizes (exchange s.log) = (List.range' 1 k).map fun n => (n, P)

theorem core_new {P : Nat} {junk : Bytes} (h : junk.length = P) : Core P [] 0 (Sink.new junk) := by
  refine ⟨h, rfl, ?_, rfl, ?_, rfl, fun _ => rfl, fun h => by omega, rfl, rfl⟩
  · simp
  · exact Nat.zero_le _

/-- Uploading the buffered bytes as the next part, whatever their number. -/
theorem uploadPart_core {P : Nat} {B : Bytes} {k : Nat} {s : Sink} {r : Nat → Reply} {u : Upload}
    (hk : k + 1 < 2 ^ 32) (hsz : s.buffered ≤ P)
    (h1 : s.flushed = P * k) (h2 : P * k + s.buffered = B.length) (h3 : s.buffer.take s.buffered = B.drop (P * k))
    (hu : u.id ≠ []) (hp : u.parts.map Prod.fst = List.range' 1 k)
    (hd : ∀ j, j < k → partData u.id (j + 1) (exchange s.log) = some ((B.drop (P * j)).take P))
    (hg : (uploadPart r u s).1 = true) :
    ∃ u', (uploadPart r u s).2.upload = some u' ∧ u'.id = u.id ∧ u'.parts.map Prod.fst = List.range' 1 (k + 1) ∧
      (∀ j, j < k + 1 → partData u.id (j + 1) (exchange (uploadPart r u s).2.log) = some ((B.drop (P * j)).take P)) ∧
      (uploadPart r u s).2.flushed = B.length ∧ (uploadPart r u s).2.buffered = 0 ∧
      (uploadPart r u s).2.buffer = s.buffer ∧
      exchange (uploadPart r u s).2.log = exchange s.log ++ [(.part u.id (k + 1) (B.drop (P * k)), r s.requests)] := by
  have hlen : u.parts.length = k := by
    have := congrArg List.length hp
    simpa using this
  have hn : u32 (u32 u.parts.length + 1) = k + 1 := by
    rw [hlen, u32_of_lt (by omega : k < 2 ^ 32), u32_of_lt hk]
  have hex : exchange (uploadPart r u s).2.log = exchange s.log ++ [(.part u.id (k + 1) (B.drop (P * k)), r s.requests)] := by
    unfold uploadPart
    dsimp only
    rw [exchange_request, hn, h3]
  have hg' : (r s.requests).good = true := hg
  obtain ⟨t, ht, htr⟩ := good_iff.1 hg'
  refine ⟨{ u with parts := u.parts ++ [(k + 1, t)] }, ?_, rfl, ?_, ?_, ?_, rfl, rfl, hex⟩
  · unfold uploadPart
    dsimp only
    rw [request_fst, hg', hn, htr]
    rfl
  · dsimp only
    rw [List.map_append, hp, List.range'_concat]
    simp [Nat.add_comm]
  · intro j hj
    rw [hex, partData_append]
    simp only [partData, partOf, htr, Option.none_or]
    by_cases hjk : j = k
    · subst hjk
      simp only [true_and, if_true, and_self, Option.some_or]
      congr 1
      rw [List.take_of_length_le]
      rw [List.length_drop]
      omega
    · rw [if_neg (by omega), Option.none_or]
      exact hd j (by omega)
  · unfold uploadPart
    show s.flushed + s.buffered = _
    rw [h1, h2]

theorem createUpload_ok {r : Nat → Reply} {s : Sink} (hg : (r s.requests).good = true) :
    ∃ s', createUpload r s = .returned true s' ∧ s'.upload = some ⟨(r s.requests).tag, []⟩ ∧ s'.buffer = s.buffer ∧
      s'.buffered = s.buffered ∧ s'.flushed = s.flushed ∧ s'.requests = s.requests + 1 ∧
      exchange s'.log = exchange s.log ++ [(.create, r s.requests)] := by
  have e : (request r .create Reply.good { s with upload := some ⟨[], []⟩ }).1 = r s.requests := rfl
  refine ⟨{ (request r .create Reply.good { s with upload := some ⟨[], []⟩ }).2 with
    upload := some ⟨(r s.requests).tag, []⟩ }, ?_, rfl, rfl, rfl, rfl, rfl, ?_⟩
  · unfold createUpload
    dsimp only
    rw [e, if_pos hg]
  · dsimp only
    exact exchange_request r .create Reply.good _

theorem createUpload_bad {r : Nat → Reply} {s : Sink} (hg : (r s.requests).good = false) :
    ∃ s', createUpload r s = .threw s' := by
  refine ⟨(request r .create Reply.good { s with upload := some ⟨[], []⟩ }).2, ?_⟩
  have e : (request r .create Reply.good { s with upload := some ⟨[], []⟩ }).1 = r s.requests := rfl
  unfold createUpload
  dsimp only
  rw [e, if_neg (by simp [hg])]

/-- After uploading the next part (with the upload created if necessary). -/
theorem flushPart_core {P : Nat} {B : Bytes} {k : Nat} {s s' : Sink} {r : Nat → Reply} (h : Core P B k s) (hk : k + 1 < 2 ^ 32)
    (hb : 0 < s.buffered) (hr : flushPart r s = .returned true s') :
    ∃ u', s'.upload = some u' ∧ u'.id ≠ [] ∧ u'.parts.map Prod.fst = List.range' 1 (k + 1) ∧
      (∀ j, j < k + 1 → partData u'.id (j + 1) (exchange s'.log) = some ((B.drop (P * j)).take P)) ∧
      s'.flushed = B.length ∧ s'.buffered = 0 ∧ s'.buffer = s.buffer ∧ object (exchange s'.log) = none ∧
      partSizes (exchange s'.log) = (List.range' 1 k).map (fun n => (n, P)) ++ [(k + 1, s.buffered)] := by
  have hB : P * k + s.buffered = B.length := by
    have := h.buffered; have := h.le; omega
  have hdl : (B.drop (P * k)).length = s.buffered := by rw [List.length_drop]; omega
  unfold flushPart at hr
  rw [if_neg (by omega)] at hr
  rcases Nat.eq_zero_or_pos k with rfl | hkp
  · rw [h.none rfl] at hr
    dsimp only at hr
    cases hg : (r s.requests).good with
    | false =>
      obtain ⟨s2, e⟩ := createUpload_bad hg
      rw [e] at hr
      simp at hr
    | true =>
      obtain ⟨s2, e, e1, e2, e3, e4, e5, e6⟩ := createUpload_ok hg
      rw [e] at hr
      dsimp only at hr
      rw [e1] at hr
      simp only [Option.getD_some, Out.returned.injEq] at hr
      obtain ⟨hr1, rfl⟩ := hr
      obtain ⟨t, ht, htr⟩ := good_iff.1 hg
      obtain ⟨u', k1, k2, k3, k4, k5, k6, k7, k8⟩ := uploadPart_core (P := P) (B := B) (k := 0) (s := s2) (r := r)
        (u := ⟨(r s.requests).tag, []⟩) hk (by rw [e3]; exact h.fits) (by rw [e4]; exact h.flushed)
        (by rw [e3]; exact hB) (by rw [e2, e3]; exact h.rest) (by rw [htr]; exact ht) rfl (fun j hj => by omega) hr1
      refine ⟨u', k1, ?_, k3, ?_, k5, k6, by rw [k7, e2], ?_, ?_⟩
      · rw [k2, htr]; exact ht
      · rw [k2]; exact k4
      · rw [k8, e6, object_append, object_append, h.object]
        simp [objectFrom, objectOf]
      · rw [k8, e6, partSizes_append, partSizes_append, h.sizes]
        simp [partSizes]
        simpa using hB.symm
  · obtain ⟨u, g1, g2, g3, g4⟩ := h.some hkp
    rw [g1] at hr
    simp only [Out.returned.injEq] at hr
    obtain ⟨hr1, rfl⟩ := hr
    obtain ⟨u', k1, k2, k3, k4, k5, k6, k7, k8⟩ := uploadPart_core (P := P) (B := B) (k := k) (s := s) (r := r)
      (u := u) hk h.fits h.flushed hB h.rest g2 g3 g4 hr1
    refine ⟨u', k1, by rw [k2]; exact g2, k3, by rw [k2]; exact k4, k5, k6, k7, ?_, ?_⟩
    · rw [k8, object_append, h.object]
      simp [objectFrom, objectOf]
    · rw [k8, partSizes_append, h.sizes]
      simp only [partSizes, List.filterMap_cons, List.filterMap_nil, hdl]

/-- The buffer is full and has been uploaded. -/
theorem flushFull {P : Nat} {B : Bytes} {k : Nat} {s s' : Sink} {r : Nat → Reply} (h : Core P B k s) (hk : k + 1 < 2 ^ 32)
    (hP : 0 < P) (hb : s.buffered = P) (hr : flushPart r s = .returned true s') : Core P B (k + 1) s' := by
  obtain ⟨u', k1, k2, k3, k4, k5, k6, k7, k8, k9⟩ := flushPart_core h hk (by omega) hr
  have hB : P * (k + 1) = B.length := by
    have := h.buffered; have := h.le; rw [Nat.mul_succ]; omega
  refine ⟨by rw [k7]; exact h.size, by rw [k5, hB], by omega, by omega, by omega, ?_, fun h => by omega,
    fun _ => ⟨u', k1, k2, k3, k4⟩, k8, ?_⟩
  · rw [k6, hB, List.drop_length]; rfl
  · rw [k9, hb, List.range'_concat]
    simp [Nat.add_comm]

/-- Copying bytes that fit into the buffer. -/
theorem copy_core {P : Nat} {B d : Bytes} {k : Nat} {s : Sink} (h : Core P B k s) (hd : s.buffered + d.length ≤ P) :
    Core P (B ++ d) k { s with
      buffer := pwrite s.buffer s.buffered d
      buffered := s.buffered + d.length } := by
  have hlt : P * k + s.buffered = B.length := by
    have := h.buffered; have := h.le; omega
  have hs := h.size
  have hpw : pwrite s.buffer s.buffered d = s.buffer.take s.buffered ++ d ++ s.buffer.drop (s.buffered + d.length) := by
    unfold pwrite
    rw [show s.buffered - s.buffer.length = 0 by omega]
    simp
  have htl : (s.buffer.take s.buffered).length = s.buffered := by rw [List.length_take]; omega
  constructor
  · dsimp only
    rw [hpw]
    simp only [List.length_append, List.length_take, List.length_drop]
    omega
  · exact h.flushed
  · rw [List.length_append]; omega
  · dsimp only
    rw [List.length_append]; omega
  · dsimp only
    exact hd
  · dsimp only
    rw [hpw, List.take_append_of_le_length (by rw [List.length_append, htl]), List.take_of_length_le (by
      rw [List.length_append, htl]), h.rest, List.drop_append_of_le_length (by omega)]
  · exact h.none
  · intro hk
    obtain ⟨u, g1, g2, g3, g4⟩ := h.some hk
    refine ⟨u, g1, g2, g3, ?_⟩
    intro j hj
    have hjl : P * j + P ≤ B.length := by
      calc P * j + P = P * (j + 1) := (Nat.mul_succ P j).symm
        _ ≤ P * k := Nat.mul_le_mul_left _ hj
        _ ≤ B.length := h.le
    rw [List.drop_append_of_le_length (by omega), List.take_append_of_le_length (by rw [List.length_drop]; omega)]
    exact g4 j hj
  · exact h.object
  · exact h.sizes

/-- Forgetting buffered bytes behind an offset. -/
theorem trunc_core {P : Nat} {B : Bytes} {k off : Nat} {s : Sink} (h : Core P B k s) (h1 : s.flushed ≤ off)
    (h2 : off ≤ B.length) : Core P (B.take off) k { s with buffered := off - s.flushed } := by
  have hf := h.flushed
  have hlt : P * k + s.buffered = B.length := by
    have := h.buffered; have := h.le; omega
  have hfits := h.fits
  constructor
  · exact h.size
  · exact h.flushed
  · rw [List.length_take]; omega
  · dsimp only; rw [List.length_take]; omega
  · dsimp only; omega
  · dsimp only
    have := congrArg (List.take (off - s.flushed)) h.rest
    rw [List.take_take, Nat.min_eq_left (by omega)] at this
    rw [this, List.drop_take, hf]
  · exact h.none
  · intro hk
    obtain ⟨u, g1, g2, g3, g4⟩ := h.some hk
    refine ⟨u, g1, g2, g3, ?_⟩
    intro j hj
    have hjl : P * j + P ≤ off := by
      calc P * j + P = P * (j + 1) := (Nat.mul_succ P j).symm
        _ ≤ P * k := Nat.mul_le_mul_left _ hj
        _ ≤ off := by omega
    have := g4 j hj
    dsimp only
    rw [this, List.drop_take, List.take_take, Nat.min_eq_left (by omega)]
  · exact h.object
  · exact h.sizes

/-- The loop of `write`. -/
theorem writeLoop_core {P : Nat} (hP : 0 < P) {r : Nat → Reply} {fuel : Nat} {data B : Bytes} {k : Nat} {s s' : Sink}
    (h : Core P B k s) (hb : s.buffered < P) (hn : B.length + data.length ≤ P * (2 ^ 32 - 1))
    (hr : writeLoop P r fuel data s = some (.returned true s')) :
    ∃ k', Core P (B ++ data) k' s' ∧ s'.buffered < P := by
  induction fuel generalizing data B k s with
  | zero =>
    cases data with
    | nil =>
      simp only [writeLoop, Option.some.injEq, Out.returned.injEq, true_and] at hr
      subst hr
      exact ⟨k, by simpa using h, hb⟩
    | cons c cs => simp [writeLoop] at hr
  | succ fuel ih =>
    cases data with
    | nil =>
      simp only [writeLoop, Option.some.injEq, Out.returned.injEq, true_and] at hr
      subst hr
      exact ⟨k, by simpa using h, hb⟩
    | cons c cs =>
      unfold writeLoop at hr
      rw [if_neg (by omega)] at hr
      dsimp only at hr
      generalize hd : (c :: cs) = data at *
      generalize hnn : min data.length (P - s.buffered) = n at hr
      have htl : (data.take n).length = n := by rw [List.length_take]; omega
      have hc := copy_core (d := data.take n) h (by rw [htl]; omega)
      rw [htl] at hc
      have hsplit : B ++ data = (B ++ data.take n) ++ data.drop n := by rw [List.append_assoc, List.take_append_drop]
      have hlen : (B ++ data.take n).length + (data.drop n).length ≤ P * (2 ^ 32 - 1) := by
        have := congrArg List.length hsplit
        rw [List.length_append, List.length_append (as := _ ++ _)] at this
        omega
      rw [hsplit]
      split at hr
      · rename_i hfull
        split at hr
        · rename_i s2 he
          have hk1 : k + 1 < 2 ^ 32 := by
            have h5 : P * (k + 1) ≤ P * (2 ^ 32 - 1) := by
              have := hc.le
              have := hc.buffered
              dsimp only at this
              rw [Nat.mul_succ]
              omega
            have := Nat.le_of_mul_le_mul_left h5 hP
            omega
          have hc2 := flushFull hc hk1 hP hfull he
          refine ih hc2 ?_ hlen hr
          have := hc2.buffered
          have h3 := hc.buffered
          have h4 := hc.le
          dsimp only at h3 h4
          rw [Nat.mul_succ] at this
          omega
        · rename_i o hne
          exfalso
          simp only [Option.some.injEq] at hr
          exact hne _ hr
      · rename_i hfull
        exact ih hc (by dsimp only at hfull ⊢; omega) hlen hr

theorem writeLoop_step {P : Nat} {r : Nat → Reply} {fuel : Nat} {data : Bytes} {s : Sink} (hd : data ≠ []) (hb : s.buffered ≤ P) :
    writeLoop P r (fuel + 1) data s =
      if s.buffered + min data.length (P - s.buffered) = P then
        match flushPart r { s with
          buffer := pwrite s.buffer s.buffered (data.take (min data.length (P - s.buffered)))
          buffered := s.buffered + min data.length (P - s.buffered) } with
        | .returned true s2 => writeLoop P r fuel (data.drop (min data.length (P - s.buffered))) s2
        | o => some o
      else writeLoop P r fuel (data.drop (min data.length (P - s.buffered))) { s with
        buffer := pwrite s.buffer s.buffered (data.take (min data.length (P - s.buffered)))
        buffered := s.buffered + min data.length (P - s.buffered) } := by
  cases data with
  | nil => exact absurd rfl hd
  | cons c cs =>
    rw [writeLoop, if_neg (by omega)]
    · rfl
    · simp

/-- Bytes in the object after writes that replace everything behind their offset. -/
def overlay (B : Bytes) (w : Nat × Bytes) : Bytes := if w.2.isEmpty then B else B.take w.1 ++ w.2

/-- Every write starts within what was written before, and not before a complete part. -/
def InOrder (P : Nat) : Bytes → List (Nat × Bytes) → Prop
  | _, [] => True
  | B, w :: ws => (w.2 ≠ [] → B.length / P * P ≤ w.1 ∧ w.1 ≤ B.length) ∧ InOrder P (overlay B w) ws

/-- No intermediate content exceeds `n` bytes. -/
def Bounded (n : Nat) : Bytes → List (Nat × Bytes) → Prop
  | B, [] => B.length ≤ n
  | B, w :: ws => B.length ≤ n ∧ Bounded n (overlay B w) ws

theorem bounded_head {n : Nat} {B : Bytes} {ws : List (Nat × Bytes)} (h : Bounded n B ws) : B.length ≤ n := by
  cases ws <;> first | exact h | exact h.1

theorem core_count {P : Nat} {B : Bytes} {k : Nat} {s : Sink} (h : Core P B k s) (hb : s.buffered < P) :
    B.length / P = k := by
  have h1 := h.buffered
  have h2 := h.le
  rw [Nat.div_eq_of_lt_le]
  · rw [Nat.mul_comm]; exact h2
  · rw [Nat.mul_comm, Nat.mul_succ]; omega

theorem write_core {P : Nat} (hP : 0 < P) {r : Nat → Reply} {fuel off : Nat} {data B : Bytes} {k : Nat} {s s' : Sink}
    (h : Core P B k s) (hb : s.buffered < P) (ho : data ≠ [] → B.length / P * P ≤ off ∧ off ≤ B.length)
    (hn : (overlay B (off, data)).length ≤ P * (2 ^ 32 - 1))
    (hr : write P r fuel off data s = some (.returned true s')) :
    ∃ k', Core P (overlay B (off, data)) k' s' ∧ s'.buffered < P := by
  unfold write at hr
  unfold overlay at hn ⊢
  dsimp only at hn ⊢
  split at hr
  · rename_i he
    rw [if_pos he]
    simp only [Option.some.injEq, Out.returned.injEq, true_and] at hr
    subst hr
    exact ⟨k, h, hb⟩
  · rename_i he
    rw [if_neg he] at hn ⊢
    obtain ⟨o1, o2⟩ := ho (by rintro rfl; simp at he)
    rw [core_count h hb, Nat.mul_comm, ← h.flushed] at o1
    rw [if_neg (by omega)] at hr
    have ht := trunc_core h o1 o2
    refine writeLoop_core hP ht ?_ ?_ hr
    · have h1 := h.buffered; have h2 := h.le; have h3 := h.flushed
      dsimp only
      omega
    · rw [List.length_append] at hn
      exact hn

theorem writes_core {P : Nat} (hP : 0 < P) {r : Nat → Reply} {ws : List (Nat × Bytes)} {B : Bytes} {k : Nat} {s s' : Sink}
    (h : Core P B k s) (hb : s.buffered < P) (ho : InOrder P B ws) (hn : Bounded (P * (2 ^ 32 - 1)) B ws)
    (hr : writes P r ws s = some (.returned true s')) :
    ∃ k', Core P (ws.foldl overlay B) k' s' ∧ s'.buffered < P := by
  induction ws generalizing B k s with
  | nil =>
    simp only [writes, Option.some.injEq, Out.returned.injEq, true_and] at hr
    subst hr
    exact ⟨k, h, hb⟩
  | cons w ws ih =>
    obtain ⟨off, data⟩ := w
    unfold writes at hr
    split at hr
    · rename_i s2 he
      obtain ⟨k2, c2, b2⟩ := write_core hP h hb ho.1 (bounded_head hn.2) he
      exact ih c2 b2 ho.2 hn.2 hr
    · rename_i o hne
      exfalso
      exact hne _ hr

/-- Sizes and numbers of the parts of an object of `n` bytes; small objects have no parts. -/
def partsOf (P n : Nat) : List (Nat × Nat) :=
  if n < P then [] else (List.range' 1 (n / P)).map (fun i => (i, P)) ++ if n % P = 0 then [] else [(n / P + 1, n % P)]

theorem flatMap_parts {P : Nat} {B : Bytes} {f : Nat → Bytes} (k : Nat)
    (h : ∀ j, j < k → f (j + 1) = (B.drop (P * j)).take P) :
    (List.range' 1 k).flatMap f = B.take (P * k) := by
  induction k with
  | zero => simp
  | succ k ih =>
    rw [List.range'_concat, List.flatMap_append, ih fun j hj => h j (by omega)]
    simp only [List.flatMap_cons, List.flatMap_nil, List.append_nil]
    rw [show 1 + 1 * k = k + 1 by omega, h k (by omega), Nat.mul_succ, List.take_add]

theorem completeUpload_object {r : Nat → Reply} {u : Upload} {s s' : Sink}
    (h : completeUpload r u s = .returned true s') :
    u.id ≠ [] ∧ u.parts ≠ [] ∧ ∃ t, exchange s'.log = exchange s.log ++ [(.complete u.id u.parts, .confirmed t)] := by
  unfold completeUpload at h
  split at h
  · simp at h
  · rename_i hne
    simp only [Bool.or_eq_true, List.isEmpty_iff, not_or] at hne
    dsimp only at h
    refine ⟨hne.1, hne.2, ?_⟩
    rw [request_fst] at h
    split at h
    · rename_i t ht
      simp only [Out.returned.injEq, true_and] at h
      subst h
      refine ⟨t, ?_⟩
      rw [exchange_request, ht]
    · simp at h
    · simp at h

/-- Completing an upload whose parts are the bytes `B`. -/
theorem complete_bytes {P k : Nat} {B : Bytes} {u : Upload} {es : List (Req × Reply)} {t : Text}
    (h1 : u.parts.map Prod.fst = List.range' 1 k)
    (h2 : ∀ j, j < k → partData u.id (j + 1) es = some ((B.drop (P * j)).take P)) (h3 : B.length ≤ P * k) :
    object (es ++ [(.complete u.id u.parts, .confirmed t)]) = some B := by
  rw [object_append]
  simp only [objectFrom, objectOf, Option.none_or, Option.some_or, Option.some.injEq]
  have : (u.parts.flatMap fun p => (partData u.id p.1 es).getD []) =
      (List.range' 1 k).flatMap fun n => (partData u.id n es).getD [] := by
    rw [← h1, List.flatMap_map]
  rw [this, flatMap_parts k (fun j hj => by rw [h2 j hj]; rfl), List.take_of_length_le h3]

theorem partSizes_complete (es : List (Req × Reply)) (id : Text) (ps : List (Nat × Text)) (a : Reply) :
    partSizes (es ++ [(.complete id ps, a)]) = partSizes es := by
  rw [partSizes_append]
  simp [partSizes]

theorem flush_object {P : Nat} (hP : 0 < P) {r : Nat → Reply} {B : Bytes} {k : Nat} {s s' : Sink} (h : Core P B k s)
    (hb : s.buffered < P) (hn : B.length ≤ P * (2 ^ 32 - 1)) (hr : flush r s = .returned true s') :
    object (exchange s'.log) = (if B = [] then none else some B) ∧ partSizes (exchange s'.log) = partsOf P B.length := by
  have hk := core_count h hb
  have hB : P * k + s.buffered = B.length := by
    have := h.buffered; have := h.le; omega
  have hm : B.length % P = s.buffered := by
    have := Nat.div_add_mod B.length P
    rw [hk] at this
    omega
  unfold flush at hr
  rcases Nat.eq_zero_or_pos k with hk0 | hkp
  · rw [h.none hk0] at hr
    dsimp only at hr
    have hlt : B.length < P := by rw [hk0] at hB; omega
    split at hr
    · rename_i h0
      simp only [Out.returned.injEq, true_and] at hr
      subst hr
      have : B = [] := by
        rw [← List.length_eq_zero_iff, ← hB, h0, hk0]; simp
      rw [h.object, if_pos this, h.sizes, hk0]
      refine ⟨rfl, ?_⟩
      unfold partsOf
      rw [if_pos hlt]
      rfl
    · rename_i h0
      have hne : B ≠ [] := by
        rintro rfl
        rw [hk0] at hB
        simp at hB
        omega
      split at hr
      · rename_i s2 he
        simp only [Out.returned.injEq, true_and] at hr
        subst hr
        unfold putObject at he
        rw [if_neg h0] at he
        dsimp only at he
        rw [request_fst] at he
        split at he
        · rename_i hg
          obtain ⟨t, ht, htr⟩ := good_iff.1 hg
          simp only [Prod.mk.injEq, true_and] at he
          have hlog : s2.log = (request r (.put (s.buffer.take s.buffered)) (fun _ => true) s).2.log := by rw [← he]
          dsimp only
          rw [hlog, exchange_request, h.rest, hk0, object_append, partSizes_append, h.sizes, hk0, if_neg hne, htr]
          unfold partsOf
          rw [if_pos hlt]
          simp [objectFrom, objectOf, partSizes]
        · simp at he
      · simp at hr
  · obtain ⟨u, g1, g2, g3, g4⟩ := h.some hkp
    rw [g1] at hr
    dsimp only at hr
    have hge : P ≤ B.length := by
      have : P * 1 ≤ P * k := Nat.mul_le_mul_left _ hkp
      omega
    have hne : B ≠ [] := by
      rintro rfl
      simp at hge
      omega
    rw [if_neg hne]
    unfold partsOf
    rw [if_neg (by omega), hk, hm]
    by_cases h0 : s.buffered = 0
    · rw [if_pos h0] at hr
      dsimp only at hr
      rw [g1] at hr
      simp only [Option.getD_some] at hr
      split at hr
      · rename_i s2 he
        simp only [Out.returned.injEq, true_and] at hr
        subst hr
        obtain ⟨_, _, t, ht⟩ := completeUpload_object he
        dsimp only
        rw [ht, complete_bytes g3 g4 (by omega), partSizes_complete, h.sizes, if_pos h0, List.append_nil]
        exact ⟨rfl, rfl⟩
      · rename_i o hne
        exfalso
        exact hne _ hr
    · rw [if_neg h0] at hr
      split at hr
      · rename_i s2 he
        have hk1 : k + 1 < 2 ^ 32 := by
          have : P * k < P * (2 ^ 32 - 1) := by omega
          have := Nat.lt_of_mul_lt_mul_left this
          omega
        obtain ⟨u', k1, k2, k3, k4, k5, k6, k7, k8, k9⟩ := flushPart_core h hk1 (by omega) he
        rw [k1] at hr
        simp only [Option.getD_some] at hr
        split at hr
        · rename_i s3 he3
          simp only [Out.returned.injEq, true_and] at hr
          subst hr
          obtain ⟨_, _, t, ht⟩ := completeUpload_object he3
          dsimp only
          rw [ht, complete_bytes k3 k4 (by rw [Nat.mul_succ]; omega), partSizes_complete, k9, if_neg h0]
          exact ⟨rfl, rfl⟩
        · rename_i o hne
          exfalso
          exact hne _ hr
      · rename_i o hne
        exfalso
        exact hne _ hr

theorem session_object {P : Nat} (hP : 0 < P) {r : Nat → Reply} {junk : Bytes} (hj : junk.length = P)
    {ws : List (Nat × Bytes)} {s' : Sink} (ho : InOrder P [] ws) (hn : Bounded (P * (2 ^ 32 - 1)) [] ws)
    (hr : session P r junk ws = some (.returned true s')) :
    object (exchange s'.log) = (if ws.foldl overlay [] = [] then none else some (ws.foldl overlay [])) ∧
      partSizes (exchange s'.log) = partsOf P (ws.foldl overlay []).length := by
  unfold session at hr
  split at hr
  · rename_i s2 he
    obtain ⟨k, c, b⟩ := writes_core hP (core_new hj) hP ho hn he
    simp only [Option.some.injEq] at hr
    refine flush_object hP c b ?_ hr
    clear hr he c b
    suffices ∀ B, Bounded (P * (2 ^ 32 - 1)) B ws → (ws.foldl overlay B).length ≤ P * (2 ^ 32 - 1) from this _ hn
    clear hn ho
    intro B hB
    induction ws generalizing B with
    | nil => exact hB
    | cons w ws ih => exact ih _ hB.2
  · rename_i o hne
    exfalso
    exact hne _ hr

/-! ### A server that confirms everything -/

theorem healthy_good {r : Nat → Reply} (h : Healthy r) (n : Nat) : (r n).good = true :=
  good_iff.2 (h n)

theorem flushPart_healthy {r : Nat → Reply} (h : Healthy r) {s : Sink} (hb : 0 < s.buffered) :
    ∃ s', flushPart r s = .returned true s' ∧ ∃ u, s'.upload = some u ∧ u.parts ≠ [] ∧
      (∀ v, s.upload = some v → u.id = v.id) ∧ (s.upload = none → u.id ≠ []) ∧ s'.buffered = 0 := by
  have key : ∀ (u : Upload) (s : Sink), (uploadPart r u s).1 = true ∧ ∃ v, (uploadPart r u s).2.upload = some v ∧
      v.parts ≠ [] ∧ v.id = u.id ∧ (uploadPart r u s).2.buffered = 0 := by
    intro u s
    refine ⟨healthy_good h _, ⟨u.id, u.parts ++ [(u32 (u32 u.parts.length + 1), (r s.requests).tag)]⟩, ?_, by simp, rfl, rfl⟩
    unfold uploadPart
    dsimp only
    rw [request_fst, healthy_good h, if_pos rfl]
  unfold flushPart
  rw [if_neg (by omega)]
  cases hu : s.upload with
  | some u =>
    dsimp only
    obtain ⟨k1, v, k2, k3, k4, k5⟩ := key u s
    rw [k1]
    exact ⟨_, rfl, v, k2, k3, fun v' hv' => by cases hv'; exact k4, fun h => by simp at h, k5⟩
  | none =>
    dsimp only
    obtain ⟨s2, e, e1, _⟩ := createUpload_ok (healthy_good h s.requests)
    rw [e]
    dsimp only
    rw [e1]
    obtain ⟨k1, v, k2, k3, k4, k5⟩ := key (Option.getD (some ⟨(r s.requests).tag, []⟩) ⟨[], []⟩) s2
    rw [k1]
    refine ⟨_, rfl, v, k2, k3, fun v' hv' => by simp at hv', fun _ => ?_, k5⟩
    rw [k4]
    obtain ⟨t, ht, htr⟩ := h s.requests
    rw [htr]
    exact ht

theorem writeLoop_healthy {P : Nat} (hP : 0 < P) {r : Nat → Reply} (h : Healthy r) {fuel : Nat} {data : Bytes} {s : Sink}
    (hb : s.buffered < P) (hf : data.length ≤ fuel) : ∃ s', writeLoop P r fuel data s = some (.returned true s') := by
  induction fuel generalizing data s with
  | zero =>
    cases data with
    | nil => exact ⟨s, rfl⟩
    | cons c cs => simp at hf
  | succ fuel ih =>
    cases data with
    | nil => exact ⟨s, rfl⟩
    | cons c cs =>
      unfold writeLoop
      rw [if_neg (by omega)]
      dsimp only
      generalize hd : (c :: cs) = data at *
      have hpos : 0 < data.length := by rw [← hd]; simp
      generalize hnn : min data.length (P - s.buffered) = n
      have hlen : (data.drop n).length ≤ fuel := by rw [List.length_drop]; omega
      split
      · obtain ⟨s2, e, _, _, _, _, _, hz⟩ := flushPart_healthy h (s := { s with
          buffer := pwrite s.buffer s.buffered (data.take n)
          buffered := s.buffered + n }) (by dsimp only; omega)
        rw [e]
        dsimp only
        exact ih (by omega) hlen
      · rename_i hne
        exact ih (by dsimp only at hne ⊢; omega) hlen

theorem writes_healthy {P : Nat} (hP : 0 < P) {r : Nat → Reply} (h : Healthy r) {ws : List (Nat × Bytes)} {B : Bytes} {k : Nat}
    {s : Sink} (hc : Core P B k s) (hb : s.buffered < P) (ho : InOrder P B ws) (hn : Bounded (P * (2 ^ 32 - 1)) B ws) :
    ∃ s', writes P r ws s = some (.returned true s') := by
  induction ws generalizing B k s with
  | nil => exact ⟨s, rfl⟩
  | cons w ws ih =>
    obtain ⟨off, data⟩ := w
    have hw : ∃ s2, write P r (fuelFor data) off data s = some (.returned true s2) := by
      unfold write
      split
      · exact ⟨s, rfl⟩
      · rename_i he
        obtain ⟨o1, o2⟩ := ho.1 (by rintro rfl; simp at he)
        dsimp only at o1 o2
        rw [core_count hc hb, Nat.mul_comm, ← hc.flushed] at o1
        rw [if_neg (by omega)]
        have h1 := hc.buffered; have h2 := hc.le; have h3 := hc.flushed
        exact writeLoop_healthy hP h (by dsimp only; omega) (by unfold fuelFor; omega)
    obtain ⟨s2, hw⟩ := hw
    obtain ⟨k2, c2, b2⟩ := write_core hP hc hb ho.1 (bounded_head hn.2) hw
    unfold writes
    rw [hw]
    exact ih c2 b2 ho.2 hn.2

theorem flush_healthy {P : Nat} {r : Nat → Reply} (h : Healthy r) {B : Bytes} {k : Nat} {s : Sink}
    (hc : Core P B k s) : ∃ s', flush r s = .returned true s' := by
  have hcomp : ∀ (u : Upload) (s : Sink), u.id ≠ [] → u.parts ≠ [] → ∃ s', completeUpload r u s = .returned true s' := by
    intro u s h1 h2
    unfold completeUpload
    rw [if_neg (by simp [h1, h2])]
    dsimp only
    rw [request_fst]
    obtain ⟨t, _, ht⟩ := h s.requests
    rw [ht]
    exact ⟨_, rfl⟩
  unfold flush
  rcases Nat.eq_zero_or_pos k with hk0 | hkp
  · rw [hc.none hk0]
    dsimp only
    split
    · exact ⟨s, rfl⟩
    · rename_i h0
      unfold putObject
      rw [if_neg h0]
      dsimp only
      rw [request_fst, healthy_good h, if_pos rfl]
      exact ⟨_, rfl⟩
  · obtain ⟨u, g1, g2, g3, _⟩ := hc.some hkp
    have hpn : u.parts ≠ [] := by
      intro e
      rw [e] at g3
      have := congrArg List.length g3
      simp at this
      omega
    rw [g1]
    dsimp only
    by_cases h0 : s.buffered = 0
    · rw [if_pos h0]
      dsimp only
      rw [g1]
      obtain ⟨s', e⟩ := hcomp u s g2 hpn
      simp only [Option.getD_some]
      rw [e]
      exact ⟨_, rfl⟩
    · rw [if_neg h0]
      obtain ⟨s2, e, v, e1, e2, e3, _⟩ := flushPart_healthy h (s := s) (by omega)
      rw [e]
      dsimp only
      rw [e1]
      simp only [Option.getD_some]
      obtain ⟨s', e'⟩ := hcomp v s2 (by rw [e3 u g1]; exact g2) e2
      rw [e']
      exact ⟨_, rfl⟩

theorem session_healthy {P : Nat} (hP : 0 < P) {r : Nat → Reply} (h : Healthy r) {junk : Bytes} (hj : junk.length = P)
    {ws : List (Nat × Bytes)} (ho : InOrder P [] ws) (hn : Bounded (P * (2 ^ 32 - 1)) [] ws) :
    ∃ s', session P r junk ws = some (.returned true s') := by
  obtain ⟨s2, e⟩ := writes_healthy hP h (core_new hj) hP ho hn
  obtain ⟨k, c, b⟩ := writes_core hP (core_new hj) hP ho hn e
  obtain ⟨s3, e3⟩ := flush_healthy h c
  unfold session
  rw [e]
  dsimp only
  exact ⟨s3, by rw [e3]⟩

end AZ.S3
