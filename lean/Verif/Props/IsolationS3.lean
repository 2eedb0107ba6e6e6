import Verif.Props.Isolation
import Verif.Props.S3Streams

set_option linter.unusedSimpArgs false

/-! # C63 for streams that share a bucket -/

namespace AZ.S3
open Spec

/-- The stream has the given history, with its objects below `root` in the bucket. -/
def Uploaded (w : World) (x : Session) : Prop := InBucket x.settings x.root ∧ x.History w

theorem uploaded_under {w : World} {x : Session} (h : Uploaded w x) : ∀ e ∈ x.events, ∃ q, e.path = x.root ++ '/' :: q := by
  obtain ⟨hr, hh⟩ := h
  have hr : LocatedAt x.settings x.root := .inr hr
  cases hh with
  | complete h => exact session_under hr h
  | any h1 h2 h3 h4 =>
    obtain ⟨cfg, cfgs, k1, k2, k3⟩ := Exc.history_objects h1 h2 h3 h4
    exact fun e he => (k3 e he).under hr k1 k2

theorem interleaving_fold {σ α : Type} {f : σ → α → σ} {parts : List (List α)} {whole : List α} (h : Interleaving parts whole)
    {i : Nat} {l : List α} (hi : parts[i]? = some l) (ho : ∀ j m, parts[j]? = some m → j ≠ i → ∀ a ∈ m, ∀ s, f s a = s) (s : σ) :
    whole.foldl f s = l.foldl f s := by
  induction h generalizing l s with
  | done hd => rw [hd l (List.mem_of_getElem? hi)]
  | @step parts k x m whole hk _ ih =>
    by_cases hki : k = i
    · subst hki
      rw [hk] at hi
      cases hi
      have hlt : k < parts.length := (List.getElem?_eq_some_iff.1 hk).1
      refine ih (l := m) ?_ ?_ (f s x)
      · rw [List.getElem?_set_self hlt]
      · intro j n hj hne
        rw [List.getElem?_set_ne (Ne.symm hne)] at hj
        exact ho j n hj hne
    · have hx : f s x = s := ho k _ hk hki x (by simp) s
      rw [List.foldl_cons, hx]
      refine ih (l := l) ?_ ?_ s
      · rw [List.getElem?_set_ne hki]; exact hi
      · intro j n hj hne a ha
        by_cases hkj : k = j
        · subst hkj
          have hlt : k < parts.length := (List.getElem?_eq_some_iff.1 hk).1
          rw [List.getElem?_set_self hlt] at hj
          cases hj
          exact ho k _ hk hne a (by simp [ha])
        · rw [List.getElem?_set_ne hkj] at hj
          exact ho j n hj hne a ha

/-- **C63 in a bucket.** Any number of streams upload to one bucket, below different names. Stream `i` has some history, of the others any initial part of
their actions has happened. However the actions interleave, every object below the name of stream `i` is exactly as if stream `i` had run alone, whatever the server answers
to the requests for it and whatever object was there before. -/
theorem isolated_in_bucket {w : World} {xs : List Session} (hran : ∀ x ∈ xs, Uploaded w x) {i : Nat} {x : Session} (hi : xs[i]? = some x)
    (hsep : ∀ (j : Nat) (y : Session), xs[j]? = some y → j ≠ i → Spec.Apart y.root x.root) {parts : List (List Ev)}
    (hpi : parts[i]? = some x.events) (hpre : ∀ (j : Nat) (m : List Ev), parts[j]? = some m → ∃ y : Session, xs[j]? = some y ∧ m <+: y.events)
    {whole : List Ev} (hw : Interleaving parts whole) (P : Nat) (srv : Text → Nat → Reply) (junk : Bytes) (old : Text → Option Bytes) (q : Text) :
    bucketAfter P srv junk old whole (x.root ++ '/' :: q) = bucketAfter P srv junk old x.events (x.root ++ '/' :: q) := by
  refine interleaving_fold hw hpi ?_ _
  intro j m hj hne a ha s
  obtain ⟨y, hy, hm⟩ := hpre j m hj
  obtain ⟨z, hz⟩ := uploaded_under (hran y (List.mem_of_getElem? hy)) a (hm.subset ha)
  exact if_pos fun e => hsep j y hy hne z q (hz.symm.trans e)

/-- **C63 in a bucket**, objects below none of the names: nothing is sent for them. -/
theorem untouched_in_bucket {w : World} {xs : List Session} (hran : ∀ x ∈ xs, Uploaded w x) {p : Text} (hp : ∀ x ∈ xs, ∀ q, p ≠ x.root ++ '/' :: q)
    {parts : List (List Ev)} (hpre : ∀ (j : Nat) (m : List Ev), parts[j]? = some m → ∃ y : Session, xs[j]? = some y ∧ m <+: y.events)
    {whole : List Ev} (hw : Interleaving parts whole) (P : Nat) (srv : Text → Nat → Reply) (junk : Bytes) (old : Text → Option Bytes) :
    bucketAfter P srv junk old whole p = ⟨none, old p, true⟩ := by
  have hall : ∀ m ∈ parts, ∀ a ∈ m, ∀ s, stepObj P (srv p) junk p s a = s := by
    intro m hm a ha s
    obtain ⟨j, hj⟩ := List.mem_iff_getElem?.1 hm
    obtain ⟨y, hy, hsub⟩ := hpre j m hj
    obtain ⟨z, hz⟩ := uploaded_under (hran y (List.mem_of_getElem? hy)) a (hsub.subset ha)
    exact if_pos fun e => hp y (List.mem_of_getElem? hy) z (e.symm.trans hz)
  clear hpre
  unfold bucketAfter objAfter
  induction hw with
  | done => rfl
  | @step parts k x m whole hk _ ih =>
    rw [List.foldl_cons, hall _ (List.mem_of_getElem? hk) x (by simp)]
    refine ih ?_
    intro n hn a ha
    rcases List.mem_or_eq_of_mem_set hn with hn | rfl
    · exact hall n hn a ha
    · exact hall _ (List.mem_of_getElem? hk) a (by simp [ha])

namespace Sample

/-- One-pixel frames, uploaded below the given name. -/
def uploaded (p : String) (calls : List Bytes) : Session :=
  let s := { AZ.Sample.slabS3 2 1 1 with storePath := some p.toList }
  { settings := s, root := p.toList
    events := match runStream AZ.Sample.world AZ.Sample.env 9 s calls with
      | some (.ok (_, _, tr)) => tr
      | _ => [] }

theorem uploaded_of {p : String} {calls : List Bytes} (h1 : trim p.toList = p.toList)
    (h3 : (match runStream AZ.Sample.world AZ.Sample.env 9 { AZ.Sample.slabS3 2 1 1 with storePath := some p.toList } calls with
      | some (.ok _) => true
      | _ => false) = true) : Uploaded AZ.Sample.world (uploaded p calls) := by
  refine ⟨⟨rfl, p.toList, rfl, h1⟩, ?_⟩
  match hm : runStream AZ.Sample.world AZ.Sample.env 9 { AZ.Sample.slabS3 2 1 1 with storePath := some p.toList } calls with
  | some (.ok (st, ns, tr)) =>
    refine .complete (env := AZ.Sample.env) (fuel := 9) (calls := calls) (st := st) (ns := ns) ?_
    unfold uploaded
    dsimp only
    rw [hm]
  | none => rw [hm] at h3; cases h3
  | some .throw => rw [hm] at h3; cases h3
  | some .ub => rw [hm] at h3; cases h3

end Sample

/-- Not vacuous: two streams below `a` and `ab`, both of which upload chunks. -/
example : (∀ x ∈ [Sample.uploaded "a" [[5], [6]], Sample.uploaded "ab" [[7]]], Uploaded AZ.Sample.world x) ∧
    Spec.Apart (Sample.uploaded "ab" [[7]]).root (Sample.uploaded "a" [[5], [6]]).root ∧
    Ev.wrote "a/0/0/0/0".toList 0 [5] ∈ (Sample.uploaded "a" [[5], [6]]).events ∧
    Ev.wrote "ab/0/0/0/0".toList 0 [7] ∈ (Sample.uploaded "ab" [[7]]).events := by
  refine ⟨?_, apart_of (by decide) (by decide), by decide +kernel, by decide +kernel⟩
  intro x hx
  rcases List.mem_cons.1 hx with rfl | hx
  · exact Sample.uploaded_of (by decide) (by decide +kernel)
  · rcases List.mem_cons.1 hx with rfl | hx
    · exact Sample.uploaded_of (by decide) (by decide +kernel)
    · cases hx

end AZ.S3
