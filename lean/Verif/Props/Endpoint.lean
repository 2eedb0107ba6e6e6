import Verif.Model.Endpoint
import Verif.Spec.Endpoint
import Verif.Props.Trim

/-!
# C104: an S3 stream connects as the settings say
-/

namespace AZ.S3
open Spec

theorem poolLinks_mem {e k p : Text} {vs : List Bool} {l : Link} (h : l ∈ poolLinks e k p vs) : l = newLink e k p := by
  induction vs with
  | nil => cases h
  | cons v vs ih =>
    simp only [poolLinks] at h
    split at h
    · rcases List.mem_cons.1 h with h | h
      · exact h
      · exact ih h
    · exact ih h

theorem poolLinks_length (e k p : Text) (vs : List Bool) : (poolLinks e k p vs).length = vs.countP (· = true) := by
  induction vs with
  | nil => rfl
  | cons v vs ih =>
    cases v
    · simpa [poolLinks] using ih
    · simpa [poolLinks] using ih

theorem https_iff (e k p : Text) : (newLink e k p).https = true ↔ ∃ rest, e = "https".toList ++ rest := by
  show "https".toList.isPrefixOf e = true ↔ _
  rw [List.isPrefixOf_iff_prefix]
  exact ⟨fun ⟨r, h⟩ => ⟨r, h.symm⟩, fun ⟨r, h⟩ => ⟨r, h.symm⟩⟩

theorem https_asks {e : Text} (h : HasScheme "https".toList e) : AsksForTls e := ⟨_, h, by decide⟩

/-- An endpoint with the scheme `http` does not ask for encryption. -/
theorem http_asks_not {e : Text} (h : HasScheme "http".toList e) : ¬ AsksForTls e := by
  rintro ⟨sc, ⟨r2, h2⟩, hl⟩
  obtain ⟨r1, h1⟩ := h
  have hlen : sc.length = 5 := by
    have := congrArg List.length hl
    simpa using this
  have e1 : e[4]? = some ':' := by rw [h1]; rfl
  match sc, hlen with
  | [a, b, c, d, f], _ =>
    have e2 : e[4]? = some f := by rw [h2]; rfl
    rw [e1] at e2
    cases e2
    have h4 : some (Char.toLower ':') = some 's' := congrArg (fun l : Text => l[4]?) hl
    exact absurd h4 (by decide)

/-- **C104, in part.** All connections of the stream go to the endpoint with the credentials of the settings (surrounding white space
removed); as many are kept as have been tested successfully. If the endpoint begins with `http://` or `https://`, in small letters, they
are encrypted exactly if the endpoint asks for it. -/
theorem connects_as_told_partial {s : Settings} {x : S3Settings} {e k p : Text} (hs : s.s3 = some x) (he : x.endpoint = some e)
    (hk : x.accessKeyId = some k) (hp : x.secretAccessKey = some p) (valid : List Bool) :
    (streamLinks s valid).length = valid.countP (· = true) ∧
    ∀ l ∈ streamLinks s valid, Trimmed e l.endpoint ∧ Trimmed k l.accessKeyId ∧ Trimmed p l.secretAccessKey ∧
      (HasScheme "http".toList l.endpoint ∨ HasScheme "https".toList l.endpoint → (l.https = true ↔ AsksForTls l.endpoint)) := by
  have e0 : streamLinks s valid = poolLinks (trim e) (trim k) (trim p) valid := by
    unfold streamLinks
    rw [hs]
    dsimp only
    rw [he, hk, hp]
    rfl
  rw [e0]
  refine ⟨poolLinks_length _ _ _ _, fun l hl => ?_⟩
  rw [poolLinks_mem hl]
  refine ⟨trim_spec e, trim_spec k, trim_spec p, fun h => ?_⟩
  show (newLink (trim e) (trim k) (trim p)).https = true ↔ AsksForTls (trim e)
  rw [https_iff]
  rcases h with h | h
  · refine ⟨?_, fun h' => absurd h' (http_asks_not h)⟩
    rintro ⟨r, hr⟩
    obtain ⟨r1, h1⟩ := h
    have e1 : (trim e)[4]? = some ':' := by
      rw [show trim e = "http".toList ++ "://".toList ++ r1 from h1]; rfl
    rw [hr] at e1
    cases e1
  · refine ⟨fun _ => https_asks h, fun _ => ?_⟩
    obtain ⟨r1, h1⟩ := h
    exact ⟨"://".toList ++ r1, by rw [show trim e = "https".toList ++ "://".toList ++ r1 from h1, List.append_assoc]⟩

/-- **C104 is violated: capital letters.** For every endpoint that begins with `HTTPS://` no connection is encrypted. -/
theorem capital_scheme_violated {e : Text} (h : HasScheme "HTTPS".toList e) (k p : Text) :
    AsksForTls e ∧ (newLink e k p).https = false := by
  refine ⟨⟨_, h, by decide⟩, ?_⟩
  rw [Bool.eq_false_iff, ne_eq, https_iff]
  rintro ⟨r, hr⟩
  obtain ⟨r1, h1⟩ := h
  have e1 : e[0]? = some 'H' := by rw [h1]; rfl
  rw [hr] at e1
  cases e1

/-- **C104 is violated: names that begin with `https`.** An endpoint without a scheme is addressed with encryption if its name begins
with `https`, and without encryption otherwise. -/
theorem host_name_violated : ∃ e1 e2 : Text, (∀ sc, ¬ HasScheme sc e1) ∧ (∀ sc, ¬ HasScheme sc e2) ∧
    (newLink e1 [] []).https = true ∧ (newLink e2 [] []).https = false := by
  have key : ∀ e : Text, '/' ∉ e → ∀ sc, ¬ HasScheme sc e := by
    rintro e he sc ⟨r, rfl⟩
    exact he (List.mem_append_left _ (List.mem_append_right _ (by decide)))
  exact ⟨"https-gate.org:9000".toList, "gate.org:9000".toList, key _ (by decide), key _ (by decide), by decide, by decide⟩

/-- Settings with three tests, the second of which fails. -/
example : streamLinks ⟨some "a".toList, none, some ⟨some " https://s3.org ".toList, some "bucket".toList, some "k".toList, some "p".toList⟩,
      none, none, false, 0, 2⟩ [true, false, true] =
    [⟨"https://s3.org".toList, "k".toList, "p".toList, true⟩, ⟨"https://s3.org".toList, "k".toList, "p".toList, true⟩] ∧
    HasScheme "https".toList "https://s3.org".toList := by
  exact ⟨by decide, "s3.org".toList, by decide⟩

end AZ.S3
