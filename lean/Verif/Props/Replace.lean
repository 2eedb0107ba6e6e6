import Verif.Props.Objects
import Verif.Props.Compression

set_option linter.unusedSimpArgs false

/-! # C49: creating a stream replaces the dataset stored at the same place -/

namespace AZ
open Spec

variable {w : World} {env : Env} {fuel : Nat} {s : Settings} {cfg : WConfig}

theorem fold_opened {p : Text} {tr : List Ev} {b : Bytes} (h : tr.foldl (stepFile p) none = some b) : Ev.opened p ∈ tr := by
  induction tr with
  | nil => cases h
  | cons e es ih =>
    rw [List.foldl_cons] at h
    by_cases hp : e.path ≠ p
    · rw [show stepFile p none e = none from if_pos hp] at h
      exact List.mem_cons_of_mem _ (ih h)
    · cases e with
      | opened q =>
        simp only [Ev.path, ne_eq, Decidable.not_not] at hp
        subst hp
        exact List.mem_cons_self
      | wrote q o d =>
        rw [show stepFile p none (.wrote q o d) = none by unfold stepFile; split <;> rfl] at h
        exact List.mem_cons_of_mem _ (ih h)
      | finalized q =>
        rw [show stepFile p none (.finalized q) = none by unfold stepFile; split <;> rfl] at h
        exact List.mem_cons_of_mem _ (ih h)
      | dropped q =>
        rw [show stepFile p none (.dropped q) = none by unfold stepFile; split <;> rfl] at h
        exact List.mem_cons_of_mem _ (ih h)

theorem validateSettings_files (f : Text → Option Bytes) (o : Option Settings) :
    validateSettings { w with files := f } o = validateSettings w o := rfl

/-- What a session does does not depend on the files that exist beforehand. -/
theorem runStream_files (f : Text → Option Bytes) (calls : List Bytes) :
    runStream { w with files := f } env fuel s calls = runStream w env fuel s calls := rfl

/-- **C49** for store paths without `file://`: whatever files existed before (`old`), any settings, storage behaviour and
calls: after a session, every file under the store was created by this stream, and its contents do not depend on what
was there before. Missing for the full property: store paths spelled with `file://`, for which it is false
(`file_url_violated`). -/
theorem replaced_partial {p root : Text} (hc : commitSettings s = .ok cfg) (hp : s.storePath = some p) (ht : trim p = root)
    (old : Text → Option Bytes) {calls : List Bytes} {st : SState} {ns : List Nat} {tr : List Ev}
    (hr : runStream { w with files := old } env fuel s calls = some (.ok (st, ns, tr))) (q : Text) :
    (∀ b, fileInStore { w with files := old } cfg (root ++ '/' :: q) tr = some b → Ev.opened (root ++ '/' :: q) ∈ tr) ∧
    runStream { w with files := fun _ => none } env fuel s calls = some (.ok (st, ns, tr)) ∧
    fileInStore { w with files := old } cfg (root ++ '/' :: q) tr =
      fileInStore { w with files := fun _ => none } cfg (root ++ '/' :: q) tr := by
  have hf : ∀ f, Fresh { w with files := f } s root := fun f => Or.inl ⟨p, hp, ht⟩
  refine ⟨fun b hb => ?_, hr, ?_⟩
  · rw [fileInStore_fresh hc (hf old)] at hb
    exact fold_opened hb
  · rw [fileInStore_fresh hc (hf old), fileInStore_fresh hc (hf _)]

/-- With `file://` (and a path after it that does not itself begin with `f`) every file of an earlier dataset that the
new stream does not itself open is still there. -/
theorem file_url_keeps {p root : Text} (hc : commitSettings s = .ok cfg) (hp : s.storePath = some p)
    (ht : trim p = "file://".toList ++ root) (hr : root.head? ≠ some 'f') {tr : List Ev} {q : Text}
    (hq : ∀ e ∈ tr, e.path ≠ root ++ '/' :: q) : fileInStore w cfg (root ++ '/' :: q) tr = w.files (root ++ '/' :: q) := by
  obtain ⟨_, _, k3, _⟩ := commit_fields hc
  unfold fileInStore
  dsimp only
  rw [stepFile_none hq, if_neg]
  rw [k3, hp, List.isPrefixOf_iff_prefix]
  dsimp only [Option.getD]
  rw [ht]
  rintro ⟨z, hz⟩
  have hz' := congrArg List.head? hz
  rw [List.append_assoc, List.append_assoc, show "file://".toList = 'f' :: "ile://".toList from rfl, List.cons_append,
    List.head?_cons] at hz'
  cases root with
  | nil =>
    rw [List.nil_append, List.head?_cons] at hz'
    exact absurd hz' (by decide)
  | cons c cs => exact hr hz'.symm

namespace Sample

/-- One-pixel frames, the store path spelled as a URL. -/
def url : Settings := { tiny with storePath := some "file:///tmp/a".toList, compression := none }

/-- A world in which a chunk of an earlier, longer dataset is stored at the same place. -/
def used : World := { Sample.world with files := fun p => if p = "/tmp/a/0/7/0/0".toList then some [1, 2, 3] else none }

def urlCfg : WConfig := { tinyStream.cfg with storePath := "file:///tmp/a".toList, compression := none }

end Sample

/-- **C49 is violated** for a `file://` store path: after creating the stream, appending one frame and closing it, the
chunk of the earlier dataset is still in the store, next to the new array metadata. -/
theorem file_url_violated : commitSettings Sample.url = .ok Sample.urlCfg ∧
    ∃ st ns tr, runStream Sample.used Sample.env 9 Sample.url [[5]] = some (.ok (st, ns, tr)) ∧
      (∃ b, fileInStore Sample.used Sample.urlCfg "/tmp/a/0/.zarray".toList tr = some b) ∧
      fileInStore Sample.used Sample.urlCfg "/tmp/a/0/7/0/0".toList tr = some [1, 2, 3] ∧
      Ev.opened "/tmp/a/0/7/0/0".toList ∉ tr := by
  refine ⟨by decide +kernel, ?_⟩
  have h : (match runStream Sample.used Sample.env 9 Sample.url [[5]] with
    | some (.ok (_, _, tr)) => (fileInStore Sample.used Sample.urlCfg "/tmp/a/0/.zarray".toList tr).isSome &&
        decide (fileInStore Sample.used Sample.urlCfg "/tmp/a/0/7/0/0".toList tr = some [1, 2, 3]) &&
        decide (Ev.opened "/tmp/a/0/7/0/0".toList ∉ tr)
    | _ => false) = true := by decide +kernel
  match hm : runStream Sample.used Sample.env 9 Sample.url [[5]] with
  | some (.ok (st, ns, tr)) =>
    rw [hm] at h
    simp only [Bool.and_eq_true, decide_eq_true_eq] at h
    exact ⟨st, ns, tr, rfl, Option.isSome_iff_exists.1 h.1.1, h.1.2, h.2⟩
  | none => rw [hm] at h; cases h
  | some .throw => rw [hm] at h; cases h
  | some .ub => rw [hm] at h; cases h

/-- A session over an earlier dataset with a plain store path, for `replaced_partial`: the earlier chunk is gone. -/
example : (match runStream Sample.used Sample.env 9 { Sample.url with storePath := some "/tmp/a".toList } [[5]] with
    | some (.ok (_, _, tr)) =>
        decide (fileInStore Sample.used { Sample.urlCfg with storePath := "/tmp/a".toList } "/tmp/a/0/7/0/0".toList tr = none)
    | _ => false) = true := by decide +kernel

end AZ
