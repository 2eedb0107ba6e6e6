import Verif.Lemmas.Buffered
import Verif.Props.StreamFiles
import Verif.Props.Crash

set_option linter.unusedSimpArgs false

/-!
# C70: files after the death of the process, before and after destroy

The buffering of `Spec.Crash`: bytes handed to a sink reach the operating system at the latest when the sink is flushed or
destroyed. The metadata sinks stay open from creation to destruction and are never flushed in between.
-/

namespace AZ
open Spec

section
variable {w : World} {env : Env} {fuel : Nat} {s : Settings} {cfg : WConfig} {cfgs : List WConfig}
  {a y x : DimProps} {inner : List DimProps} {root : Text} {calls : List (List Bytes)}
  {st : SState} {ns : List Nat} {tr : List Ev}

/-- **C70, partial.** Any storage that lets destroy succeed, both versions, all levels: when `ZarrStream_destroy` has returned
success, the death of the process changes no file. Missing: the time before destroy, for which the property is
false (`documents_may_be_empty`). -/
theorem finished_files_safe_partial (h : Setup w fuel s cfg cfgs)
    (hd : s.dimensions = some (a :: (inner ++ [y, x])))
    (hf : ∀ c ∈ calls, ∀ f ∈ c, f.length = y.arraySize * x.arraySize * itemSize s.dataType)
    (hrun : runStream w env fuel s (calls.map List.flatten) = some (.ok (st, ns, tr)))
    (p : Text) {c : Option Bytes} (hc : TornImage p tr c) : c = fileAfter p tr := by
  obtain ⟨hF, hF0⟩ := frame_size h hd
  rw [← hF] at hf
  obtain ⟨hS, _⟩ := session_ok h.commit h.levels hF0 hf hrun
  have hq : (disk p tr).pending = [] := by
    by_cases ho : ∃ c ∈ cfgs, Owned c p
    · obtain ⟨c, hcm, ho⟩ := ho
      obtain ⟨i, hi, hci⟩ := List.getElem_of_mem hcm
      obtain ⟨stf, k1, k2⟩ := hS.level i c (by rw [List.getElem?_eq_getElem hi, hci])
      unfold runArray at k1
      obtain ⟨s1, k3, k4⟩ := Res.bind_eq_ok.1 k1
      rw [disk_about, k2 p ho, ← disk_about]
      exact finalized_quiet (buffered_frames (buffered_init c) k3) k4 p
    · by_cases hk : ∃ key ∈ metaKeys cfg.version, p = metaSinkPath cfg key
      · obtain ⟨key, hk, rfl⟩ := hk
        have := session_docs h.commit h.levels hF0 hf hrun hk
        rw [disk_about, this, disk_append]
        exact foldl_closed (by simp) ⟨_, List.mem_singleton.2 rfl, rfl⟩ _
      · rw [show tr = [] ++ tr from rfl, disk_append_other]
        · rfl
        · intro e he hep
          rcases hS.rest e he with ⟨c, h1, h2⟩ | ⟨key, h1, h2⟩
          · exact ho ⟨c, h1, hep ▸ h2⟩
          · exact hk ⟨key, h1, hep ▸ h2⟩
  rw [quiet_image hq hc, fileAfter_disk, hq]
  cases (disk p tr).file <;> rfl

theorem writeDoc_open {p : Text} {doc : Bytes} {evs : List Ev} (h : writeDoc env p doc = .ok evs) :
    ∀ e ∈ evs, ∀ q, e ≠ .finalized q ∧ e ≠ .dropped q := by
  unfold writeDoc at h
  split at h
  · cases h
    intro e he q
    simp only [List.mem_singleton] at he
    subst he
    exact ⟨nofun, nofun⟩
  · cases h; simp
  · simp at h
  · simp at h

/-- A document that is opened somewhere in the history and never closed in it may be empty. -/
theorem opened_empty {p : Text} {tr : List Ev} (ho : Ev.opened p ∈ tr)
    (hc : ∀ e ∈ tr, e ≠ .finalized p ∧ e ≠ .dropped p) : WholeImage p tr (some []) := by
  have key : (disk p tr).file = some [] := by
    obtain ⟨u, v, rfl⟩ := List.append_of_mem ho
    rw [disk_append, List.foldl_cons]
    have h1 : (stepDisk p (disk p u) (.opened p)).file = some [] := by
      unfold stepDisk
      rw [if_pos (show (Ev.opened p).path = p from rfl)]
    have hv : ∀ e ∈ v, e ≠ .finalized p ∧ e ≠ .dropped p := fun e he => hc e (by simp [he])
    generalize stepDisk p (disk p u) (.opened p) = d at h1
    clear hc ho
    induction v generalizing d with
    | nil => exact h1
    | cons e es ih =>
      rw [List.foldl_cons]
      refine ih (fun e he => hv e (by simp [he])) _ ?_
      unfold stepDisk
      split
      · rename_i hp
        cases e with
        | opened q => rfl
        | wrote q o x => exact h1
        | finalized q => exact absurd (congrArg Ev.finalized hp) (hv _ List.mem_cons_self).1
        | dropped q => exact absurd (congrArg Ev.dropped hp) (hv _ List.mem_cons_self).2
      · exact h1
  exact ⟨0, by rw [key]; rfl⟩

/-- **C70 is violated by every stream that has not been destroyed.** Any storage, both versions, any number of whole
frames appended: if the process dies now, it may be that all stream-level documents are empty files (so the
dataset cannot be opened, `empty_not_json`), and that the array document of every level is missing or empty, however many chunks
were completed. -/
theorem documents_may_be_empty (h : Setup w fuel s cfg cfgs)
    (hd : s.dimensions = some (a :: (inner ++ [y, x]))) (hl : LocatedAt s root)
    (hf : ∀ c ∈ calls, ∀ f ∈ c, f.length = y.arraySize * x.arraySize * itemSize s.dataType)
    {st0 : SState} (h0 : createStream w env fuel (some s) = some (.ok st0))
    (hrun : appends env (calls.map List.flatten) st0 = .ok (st, ns)) :
    (∀ name ∈ streamDocNames s.version, WholeImage (root ++ '/' :: name.toList) st.trace (some [])) ∧
    ∀ i, i < cfgs.length → ∃ c, WholeImage (root ++ '/' :: arrayDocName s.version i) st.trace c ∧ (c = none ∨ c = some []) := by
  obtain ⟨hF, hF0⟩ := frame_size h hd
  rw [← hF] at hf
  constructor
  · intro name hname
    have hk : name.toList ∈ metaKeys cfg.version := by
      rw [metaKeys_eq h.commit]; exact List.mem_map_of_mem hname
    rw [← hl.streamDoc h.commit]
    generalize name.toList = key at hk
    obtain ⟨cfg', cfgs', hC⟩ := createStream_ok h0
    have e1 := hC.commit
    rw [h.commit] at e1
    cases e1
    have e2 := hC.levels
    rw [h.levels] at e2
    cases e2
    obtain ⟨h3, _⟩ := appends_aligned_ok hF0 calls hf hC.aligned hrun
    obtain ⟨evs, t1, t2, _⟩ := (foldFrames_trace h3 hC.traceOk).tr
    have hcfgs : st.levels.map (·.cfg) = cfgs := (foldFrames_keeps h3).cfgs.trans hC.cfgsEq
    obtain ⟨d1, d2, d3, dt, k1, k2, k3⟩ := hC.docs
    have hev : ∀ e ∈ evs, e.path ≠ metaSinkPath cfg key := by
      intro e he hep
      obtain ⟨lv, hlv, ho⟩ := t2 e he
      have hm : lv.cfg ∈ cfgs := by rw [← hcfgs]; exact List.mem_map_of_mem hlv
      obtain ⟨i, hi, hci⟩ := List.getElem_of_mem hm
      have hss := (levelConfigs_inherits h.levels (by rw [List.getElem?_eq_getElem hi, hci])).1.same
      exact owned_ne_sink hss hk ho hep.symm
    apply opened_empty
    · rw [t1, dt]
      simp only [List.append_assoc, List.mem_append]
      exact .inl (List.mem_map_of_mem (List.mem_map_of_mem hk))
    · intro e he
      rw [t1, dt] at he
      simp only [List.mem_append] at he
      rcases he with (((he | he) | he) | he) | he
      · obtain ⟨q, _, rfl⟩ := List.mem_map.1 he
        exact ⟨nofun, nofun⟩
      · exact writeDoc_open k1 e he _
      · exact writeDoc_open k2 e he _
      · split at k3
        · rw [k3] at he; simp at he
        · exact writeDoc_open k3 e he _
      · refine ⟨?_, ?_⟩
        · rintro rfl; exact hev _ he rfl
        · rintro rfl; exact hev _ he rfl
  · intro i hi
    have hc : cfgs[i]? = some cfgs[i] := List.getElem?_eq_getElem hi
    rw [← hl.arrayDoc h hc]
    generalize cfgs[i] = c at hc
    obtain ⟨ws, k1, k2⟩ := reached_level h (by
      rw [← ArrayDims.bytesOfFrame_eq h.dimsValid h.fits]; exact hf) h0 hrun hc
    have hB := buffered_frames (buffered_init c) k1
    have e := k2 _ (Owned.all (p := arrayMetaPath c) (.inl rfl))
    have hN : NeverClosed (arrayMetaPath c) st.trace := hB.doc.about e
    exact hN.image

end

/-- The sample stream (three levels, eleven frames in three calls): right before destroy the root attributes may be empty, which
is not JSON; after destroy the file is what was written whatever happens to the process. -/
example : ∃ st ns tr, runStream Sample.world Sample.env 9 Sample.settings (Sample.calls.map List.flatten) = some (.ok (st, ns, tr)) ∧
    WholeImage ("/tmp/a.zarr".toList ++ '/' :: ".zgroup".toList) st.trace (some []) ∧ (∀ v, ¬ JsonFile [] v) ∧
    ∀ c, TornImage ("/tmp/a.zarr".toList ++ '/' :: ".zgroup".toList) tr c →
      c = fileAfter ("/tmp/a.zarr".toList ++ '/' :: ".zgroup".toList) tr := by
  obtain ⟨cfgs, h, hl⟩ := Sample.setup
  obtain ⟨st, tr, h1, _⟩ := session_v2 (calls := Sample.calls) h Sample.storageOk rfl (by decide) Sample.calls_sized
  obtain ⟨st0, h0, h01⟩ := runStream_parts h1
  exact ⟨st, _, tr, h1,
    (documents_may_be_empty h (a := Sample.dimT) (inner := [Sample.dimC]) (y := Sample.dimY) (x := Sample.dimX) rfl
      (.inl Sample.storedAt) Sample.calls_sized h0 h01).1 ".zgroup" (by simp [streamDocNames, Sample.settings]),
    empty_not_json,
    fun c hc => finished_files_safe_partial h (a := Sample.dimT) (inner := [Sample.dimC]) (y := Sample.dimY) (x := Sample.dimX) rfl
      Sample.calls_sized h1 _ hc⟩

end AZ
