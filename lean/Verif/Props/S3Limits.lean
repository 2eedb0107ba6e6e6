import Verif.Props.S3Sink
import Verif.Lemmas.Bytes

/-! # C76: the size of objects on S3 -/

set_option linter.unusedSimpArgs false

namespace Spec
open AZ AZ.S3

/-- The largest number of a part of a multipart upload (Amazon S3, "Multipart upload limits"). -/
def maxParts : Nat := 10000

/-- The largest size of a part, and of an object stored with one request: 5 GiB. -/
def maxRequest : Nat := 5 * 2 ^ 30

/-- Requests within the limits of S3: part numbers 1 to 10000, at most 10000 parts, at most 5 GiB in one request. (The least size of
a part that is not the last is 5 MiB.) -/
def Permitted : Req → Prop
  | .put data => data.length ≤ maxRequest
  | .create => True
  | .part _ n data => 1 ≤ n ∧ n ≤ maxParts ∧ data.length ≤ maxRequest
  | .complete _ parts => parts.length ≤ maxParts

/-- The server keeps to the limits: it confirms permitted requests only. -/
def KeepsLimits (es : List (Req × Reply)) : Prop := ∀ q t, (q, .confirmed t) ∈ es → Permitted q

end Spec

namespace AZ.S3
open Spec

/-- What holds of a sink all of whose calls have returned true. -/
structure Fine (P : Nat) (s : Sink) : Prop where
  size : s.buffer.length = P
  puts : ∀ d a, (.put d, a) ∈ exchange s.log → d.length ≤ P
  parts : ∀ id n d a, (.part id n d, a) ∈ exchange s.log → a.good = true
  completes : ∀ id ps a, (.complete id ps, a) ∈ exchange s.log → ps.length ≤ (partSizes (exchange s.log)).length
  upload : ∀ u, s.upload = some u → u.parts.length ≤ (partSizes (exchange s.log)).length

theorem fine_new {P : Nat} {junk : Bytes} (h : junk.length = P) : Fine P (Sink.new junk) :=
  ⟨h, nofun, nofun, nofun, nofun⟩

theorem fine_uploadPart {P : Nat} {s : Sink} {r : Nat → Reply} {u : Upload} (h : Fine P s)
    (hu : u.parts.length ≤ (partSizes (exchange s.log)).length) (hg : (uploadPart r u s).1 = true) :
    Fine P (uploadPart r u s).2 := by
  have hg' : (r s.requests).good = true := hg
  have e : exchange (uploadPart r u s).2.log = exchange s.log ++
      [(.part u.id (u32 (u32 u.parts.length + 1)) (s.buffer.take s.buffered), r s.requests)] :=
    exchange_request r (.part u.id (u32 (u32 u.parts.length + 1)) (s.buffer.take s.buffered)) (fun _ => true) s
  have ep : (partSizes (exchange (uploadPart r u s).2.log)).length = (partSizes (exchange s.log)).length + 1 := by
    rw [e, partSizes_append, List.length_append]
    rfl
  refine ⟨h.size, ?_, ?_, ?_, ?_⟩
  · intro d a hm
    rw [e] at hm
    rcases List.mem_append.1 hm with hm | hm
    · exact h.puts d a hm
    · simp at hm
  · intro id n d a hm
    rw [e] at hm
    rcases List.mem_append.1 hm with hm | hm
    · exact h.parts id n d a hm
    · simp at hm
      rw [hm.2]
      exact hg'
  · intro id ps a hm
    rw [ep]
    rw [e] at hm
    rcases List.mem_append.1 hm with hm | hm
    · exact Nat.le_succ_of_le (h.completes id ps a hm)
    · simp at hm
  · intro v hv
    rw [ep]
    have : v = { u with parts := u.parts ++ [(u32 (u32 u.parts.length + 1), (r s.requests).tag)] } := by
      unfold uploadPart request at hv
      dsimp only at hv
      rw [hg', if_pos rfl] at hv
      exact (Option.some.inj hv).symm
    rw [this]
    simp
    exact hu

theorem fine_flushPart {P : Nat} {s s' : Sink} {r : Nat → Reply} (h : Fine P s) (hr : flushPart r s = .returned true s') :
    Fine P s' := by
  unfold flushPart at hr
  split at hr
  · simp at hr
  · split at hr
    · rename_i u hu
      simp only [Out.returned.injEq] at hr
      rw [← hr.2]
      exact fine_uploadPart h (h.upload u hu) hr.1
    · split at hr
      · rename_i b s2 he
        simp only [Out.returned.injEq] at hr
        cases hgood : (r s.requests).good with
        | false =>
          obtain ⟨s3, h3⟩ := createUpload_bad (r := r) (s := s) hgood
          rw [h3] at he
          simp at he
        | true =>
          obtain ⟨s3, h3, h4, h5, _, _, _, h6⟩ := createUpload_ok (r := r) (s := s) hgood
          rw [h3] at he
          simp only [Out.returned.injEq] at he
          obtain ⟨_, rfl⟩ := he
          have hf : Fine P s3 := by
            refine ⟨by rw [h5]; exact h.size, ?_, ?_, ?_, ?_⟩
            · intro d a hm
              rw [h6] at hm
              rcases List.mem_append.1 hm with hm | hm
              · exact h.puts d a hm
              · simp at hm
            · intro id n d a hm
              rw [h6] at hm
              rcases List.mem_append.1 hm with hm | hm
              · exact h.parts id n d a hm
              · simp at hm
            · intro id ps a hm
              rw [h6] at hm ⊢
              rw [partSizes_append, List.length_append]
              rcases List.mem_append.1 hm with hm | hm
              · exact Nat.le_add_right_of_le (h.completes id ps a hm)
              · simp at hm
            · intro u hu
              rw [h4] at hu
              cases hu
              exact Nat.zero_le _
          rw [← hr.2]
          refine fine_uploadPart hf ?_ hr.1
          rw [h4]
          exact Nat.zero_le _
      · rename_i hne
        exfalso
        exact hne _ _ hr

theorem fine_writeLoop {P : Nat} {r : Nat → Reply} {fuel : Nat} {data : Bytes} {s s' : Sink} (h : Fine P s)
    (hr : writeLoop P r fuel data s = some (.returned true s')) : Fine P s' := by
  fun_induction writeLoop P r fuel data s with
  | case1 => cases hr; exact h
  | case2 => simp at hr
  | case3 => simp at hr
  | case4 fuel data s hd hP n s1 hb s2 he ih =>
    refine ih (fine_flushPart ?_ he) hr
    refine ⟨?_, h.puts, h.parts, h.completes, h.upload⟩
    show (pwrite s.buffer s.buffered (data.take n)).length = P
    rw [pwrite_length, h.size]
    rw [List.length_take, h.size]
    omega
  | case5 fuel data s hd hP n s1 hb hne =>
    exfalso
    rw [Option.some.injEq] at hr
    exact hne _ hr
  | case6 fuel data s hd hP n s1 hb ih =>
    refine ih ⟨?_, h.puts, h.parts, h.completes, h.upload⟩ hr
    show (pwrite s.buffer s.buffered (data.take n)).length = P
    rw [pwrite_length, h.size]
    rw [List.length_take, h.size]
    omega

theorem fine_writes {P : Nat} {r : Nat → Reply} {ws : List (Nat × Bytes)} {s s' : Sink} (h : Fine P s)
    (hr : writes P r ws s = some (.returned true s')) : Fine P s' := by
  induction ws generalizing s with
  | nil => cases hr; exact h
  | cons w ws ih =>
    obtain ⟨off, data⟩ := w
    rw [writes] at hr
    split at hr
    · rename_i s2 he
      refine ih ?_ hr
      unfold write at he
      split at he
      · cases he; exact h
      · split at he
        · simp at he
        · refine fine_writeLoop ?_ he
          exact ⟨h.size, h.puts, h.parts, h.completes, h.upload⟩
    · rename_i hne
      exact absurd hr (hne _)

theorem fine_session {P : Nat} {r : Nat → Reply} {junk : Bytes} (hj : junk.length = P) {ws : List (Nat × Bytes)} {s : Sink}
    (hr : session P r junk ws = some (.returned true s)) : Fine P s := by
  unfold session at hr
  split at hr
  · rename_i s1 he
    have h := fine_writes (fine_new hj) he
    rw [Option.some.injEq] at hr
    unfold flush at hr
    split at hr
    · rename_i u hu
      dsimp only at hr
      split at hr
      · rename_i s2 ho
        have h2 : Fine P s2 ∧ s2.upload.isSome := by
          split at ho
          · simp only [Out.returned.injEq, true_and] at ho
            subst ho
            exact ⟨h, by rw [hu]; rfl⟩
          · refine ⟨fine_flushPart h ho, ?_⟩
            unfold flushPart at ho
            split at ho
            · simp at ho
            · rw [hu] at ho
              simp only [Out.returned.injEq] at ho
              rw [← ho.2]
              rfl
        obtain ⟨v, hv⟩ := Option.isSome_iff_exists.1 h2.2
        rw [hv] at hr
        split at hr
        · rename_i s3 hc
          simp only [Out.returned.injEq, true_and] at hr
          obtain ⟨_, _, t, ht⟩ := completeUpload_object hc
          have hb : s3.buffer = s2.buffer ∧ s3.upload = s2.upload := by
            unfold completeUpload at hc
            split at hc
            · simp at hc
            · dsimp only at hc
              split at hc
              · simp only [Out.returned.injEq, true_and] at hc
                rw [← hc]
                exact ⟨rfl, rfl⟩
              · simp at hc
              · simp at hc
          have hp : partSizes (exchange s3.log) = partSizes (exchange s2.log) := by rw [ht, partSizes_complete]
          rw [← hr]
          refine ⟨by rw [← h2.1.size]; exact congrArg _ hb.1, ?_, ?_, ?_, ?_⟩
          · intro d a hm
            dsimp only at hm
            rw [ht] at hm
            rcases List.mem_append.1 hm with hm | hm
            · exact h2.1.puts d a hm
            · simp at hm
          · intro id n d a hm
            dsimp only at hm
            rw [ht] at hm
            rcases List.mem_append.1 hm with hm | hm
            · exact h2.1.parts id n d a hm
            · simp at hm
          · intro id ps a hm
            dsimp only at hm ⊢
            rw [hp]
            rw [ht] at hm
            rcases List.mem_append.1 hm with hm | hm
            · exact h2.1.completes id ps a hm
            · simp at hm
              rw [hm.1.2]
              exact h2.1.upload v hv
          · intro u' hu'
            dsimp only at hu' ⊢
            rw [hp]
            exact h2.1.upload u' (hb.2 ▸ hu')
        · rename_i hne
          exact absurd hr (hne _)
      · rename_i hne
        exact absurd hr (hne _)
    · split at hr
      · simp only [Out.returned.injEq, true_and] at hr
        rw [← hr]
        exact h
      · split at hr
        · rename_i s2 hp
          simp only [Out.returned.injEq, true_and] at hr
          rw [← hr]
          unfold putObject at hp
          split at hp
          · simp at hp
          · dsimp only at hp
            split at hp
            · simp only [Prod.mk.injEq, true_and] at hp
              rw [← hp]
              have e := exchange_request r (.put (s1.buffer.take s1.buffered)) (fun _ => true) s1
              have ep : partSizes (exchange (request r (.put (s1.buffer.take s1.buffered)) (fun _ => true) s1).2.log) =
                  partSizes (exchange s1.log) := by
                rw [e, partSizes_append]
                simp [partSizes]
              refine ⟨h.size, ?_, ?_, ?_, ?_⟩
              · intro d a hm
                dsimp only at hm
                rw [e] at hm
                rcases List.mem_append.1 hm with hm | hm
                · exact h.puts d a hm
                · simp at hm
                  rw [hm.1, List.length_take, h.size]
                  omega
              · intro id n d a hm
                dsimp only at hm
                rw [e] at hm
                rcases List.mem_append.1 hm with hm | hm
                · exact h.parts id n d a hm
                · simp at hm
              · intro id ps a hm
                dsimp only at hm ⊢
                rw [ep]
                rw [e] at hm
                rcases List.mem_append.1 hm with hm | hm
                · exact h.completes id ps a hm
                · simp at hm
              · intro u' hu'
                dsimp only at hu' ⊢
                rw [ep]
                exact h.upload u' hu'
            · simp at hp
        · simp at hr
  · rename_i hne
    exact absurd hr (hne _)

theorem partsOf_bounds {P n m : Nat} (hP : 0 < P) (h : n ≤ m * P) :
    (partsOf P n).length ≤ m ∧ ∀ p ∈ partsOf P n, 1 ≤ p.1 ∧ p.1 ≤ m ∧ p.2 ≤ P := by
  obtain ⟨h1, _, h3⟩ := partsOf_shape hP n
  have hl : (partsOf P n).length ≤ m := by
    unfold partsOf
    split
    · exact Nat.zero_le _
    · split
      · simp
        exact Nat.div_le_of_le_mul (by rw [Nat.mul_comm]; exact h)
      · rename_i hm
        simp
        have := Nat.div_add_mod n P
        by_contra hc
        have hle : m ≤ n / P := by omega
        have := Nat.mul_le_mul_left P hle
        rw [Nat.mul_comm m] at h
        omega
  refine ⟨hl, fun p hp => ?_⟩
  have hm : p.1 ∈ (partsOf P n).map Prod.fst := List.mem_map_of_mem hp
  rw [h1, List.mem_range'_1] at hm
  exact ⟨hm.1, by omega, (h3 p hp).2⟩

theorem partsOf_many {P n m : Nat} (hP : 0 < P) (hm : 0 < m) (h : m * P < n) : ∃ z, (m + 1, z) ∈ partsOf P n := by
  have hd : m ≤ n / P := (Nat.le_div_iff_mul_le hP).2 h.le
  have hPn : P ≤ n := (Nat.le_mul_of_pos_left P hm).trans h.le
  unfold partsOf
  rw [if_neg (by omega)]
  rcases Nat.lt_or_ge m (n / P) with hlt | hge
  · refine ⟨P, List.mem_append_left _ (List.mem_map.2 ⟨m + 1, ?_, rfl⟩)⟩
    rw [List.mem_range'_1]
    omega
  · have e : n / P = m := by omega
    have := Nat.div_add_mod n P
    rw [e, Nat.mul_comm] at this
    refine ⟨n % P, List.mem_append_right _ ?_⟩
    rw [if_neg (by omega), e]
    simp

/-- **C76** for objects of up to 10000 parts (50 GB with parts of 5 MiB): against a server that confirms every request the writes and
the finalization succeed, and no request exceeds the limits of S3, so that the limits do not matter. Missing: larger objects, for
which it is false. -/
theorem s3_within_limits_partial {P : Nat} (hP : 0 < P) (hp : P ≤ maxRequest) {r : Nat → Reply} (h : Healthy r) {junk : Bytes}
    (hj : junk.length = P) {ds : List Bytes} (hn : ds.flatten.length ≤ maxParts * P) :
    ∃ s, session P r junk (consecutive 0 ds) = some (.returned true s) ∧ (∀ q a, (q, a) ∈ exchange s.log → Permitted q) ∧
      object (exchange s.log) = if ds.flatten = [] then none else some ds.flatten := by
  have hn' : ds.flatten.length ≤ P * (2 ^ 32 - 1) := by
    refine hn.trans ?_
    rw [Nat.mul_comm]
    exact Nat.mul_le_mul_left _ (by decide)
  obtain ⟨s, hs⟩ := s3_healthy_succeeds hP h hj hn'
  refine ⟨s, hs, ?_, (s3_object_exact hP hj hn' hs).1⟩
  have hf := fine_session hj hs
  have e := consecutive_fold [] ds
  obtain ⟨_, h2⟩ := session_object hP hj (consecutive_inOrder [] ds) (consecutive_bounded [] ds (by simpa using hn')) hs
  rw [List.length_nil, List.nil_append] at e
  rw [List.length_nil, e] at h2
  obtain ⟨b1, b2⟩ := partsOf_bounds hP hn
  intro q a hm
  cases q with
  | put d => exact (hf.puts d a hm).trans hp
  | create => trivial
  | part id n d =>
    have : (n, d.length) ∈ partSizes (exchange s.log) := List.mem_filterMap.2 ⟨_, hm, rfl⟩
    rw [h2] at this
    obtain ⟨c1, c2, c3⟩ := b2 _ this
    exact ⟨c1, c2, c3.trans hp⟩
  | complete id ps =>
    refine (hf.completes id ps a hm).trans ?_
    rw [h2]
    exact b1

/-- **C76 fails** for every object of more than 10000 parts and every server that keeps to the limits of S3: the writes and the
finalization do not all succeed, whatever the blocks in which the bytes are written. -/
theorem s3_limit_violated {P : Nat} (hP : 0 < P) {r : Nat → Reply} {junk : Bytes} (hj : junk.length = P) {ds : List Bytes}
    (h1 : maxParts * P < ds.flatten.length) (h2 : ds.flatten.length ≤ P * (2 ^ 32 - 1)) (s : Sink) (hk : KeepsLimits (exchange s.log)) :
    session P r junk (consecutive 0 ds) ≠ some (.returned true s) := by
  intro hs
  have hf := fine_session hj hs
  have e := consecutive_fold [] ds
  obtain ⟨_, h3⟩ := session_object hP hj (consecutive_inOrder [] ds) (consecutive_bounded [] ds (by simpa using h2)) hs
  rw [List.length_nil, List.nil_append] at e
  rw [List.length_nil, e] at h3
  obtain ⟨z, hz⟩ := partsOf_many hP (by decide : 0 < maxParts) h1
  rw [← h3] at hz
  obtain ⟨⟨q, a⟩, hm, hq⟩ := List.mem_filterMap.1 hz
  cases q with
  | part id n d =>
    simp only [Option.some.injEq, Prod.mk.injEq] at hq
    obtain ⟨t, _, rfl⟩ := good_iff.1 (hf.parts id n d a hm)
    have := (hk _ t hm).2.1
    omega
  | _ => simp at hq

/-- With the part size of the code the largest object has 52428800000 bytes. -/
theorem s3_largest_object : maxParts * partSize = 52428800000 := by decide

/-- A server that keeps to the limits: three bytes in parts of two. -/
example : ∃ s, session 2 (fun n => .confirmed [Char.ofNat (97 + n)]) [0, 0] (consecutive 0 [[1, 2, 3]]) = some (.returned true s) ∧
    KeepsLimits (exchange s.log) := by
  obtain ⟨s, h1, h2, _⟩ := s3_within_limits_partial (P := 2) (by decide) (by decide) (r := fun n => .confirmed [Char.ofNat (97 + n)])
    (fun n => ⟨_, by simp, rfl⟩) (junk := [0, 0]) rfl (ds := [[1, 2, 3]]) (by decide)
  exact ⟨s, h1, fun q t hm => h2 q _ hm⟩

/-- A server without limits does store larger objects: the sink sends requests beyond the limits. -/
example {ds : List Bytes} (h1 : maxParts * 1 < ds.flatten.length) (h2 : ds.flatten.length ≤ 1 * (2 ^ 32 - 1)) :
    ∃ s, session 1 (fun _ => .confirmed ['a']) [0] (consecutive 0 ds) = some (.returned true s) ∧ ¬ KeepsLimits (exchange s.log) := by
  obtain ⟨s, hs⟩ := s3_healthy_succeeds (P := 1) (r := fun _ => .confirmed ['a']) (by decide) (fun _ => ⟨_, by simp, rfl⟩) (junk := [0]) rfl h2
  exact ⟨s, hs, fun hk => s3_limit_violated (P := 1) (junk := [0]) (by decide) rfl h1 h2 s hk hs⟩

end AZ.S3
