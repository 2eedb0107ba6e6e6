import Verif.Lemmas.Crash
import Verif.Lemmas.CrashSession

set_option linter.unusedSimpArgs false

/-! # Which files may have bytes in the buffer of their stream

Whatever the storage does: only the objects whose sinks are open. -/

namespace AZ
open Spec

theorem disk_append (p : Text) (a b : List Ev) : disk p (a ++ b) = b.foldl (stepDisk p) (disk p a) := by
  unfold disk
  rw [List.foldl_append]

theorem foldl_other {p : Text} {evs : List Ev} (h : ∀ e ∈ evs, e.path ≠ p) (d : Disk) : evs.foldl (stepDisk p) d = d := by
  induction evs generalizing d with
  | nil => rfl
  | cons e es ih =>
    rw [List.foldl_cons, stepDisk_other (h e (by simp)), ih fun e he => h e (by simp [he])]

theorem disk_append_other {p : Text} {a b : List Ev} (h : ∀ e ∈ b, e.path ≠ p) : disk p (a ++ b) = disk p a := by
  rw [disk_append, foldl_other h]

/-- Opening files. -/
theorem foldl_opened {p : Text} (ps : List Text) (d : Disk) (h : d.pending = []) :
    ((ps.map Ev.opened).foldl (stepDisk p) d).pending = [] := by
  induction ps generalizing d with
  | nil => exact h
  | cons q qs ih =>
    rw [List.map_cons, List.foldl_cons]
    apply ih
    unfold stepDisk
    split
    · rfl
    · exact h

/-- Closing files. -/
theorem foldl_closed_keep {p : Text} {evs : List Ev} (he : ∀ e ∈ evs, (∃ q, e = .finalized q) ∨ ∃ q, e = .dropped q) (d : Disk)
    (h : d.pending = []) : (evs.foldl (stepDisk p) d).pending = [] := by
  induction evs generalizing d with
  | nil => exact h
  | cons e es ih =>
    rw [List.foldl_cons]
    apply ih fun e h => he e (by simp [h])
    unfold stepDisk
    split
    · rcases he e (by simp) with ⟨q, rfl⟩ | ⟨q, rfl⟩ <;> rfl
    · exact h

theorem foldl_closed {p : Text} {evs : List Ev} (he : ∀ e ∈ evs, (∃ q, e = .finalized q) ∨ ∃ q, e = .dropped q)
    (h : ∃ e ∈ evs, e.path = p) (d : Disk) : (evs.foldl (stepDisk p) d).pending = [] := by
  induction evs generalizing d with
  | nil => obtain ⟨_, h, _⟩ := h; simp at h
  | cons e es ih =>
    rw [List.foldl_cons]
    by_cases hp : e.path = p
    · apply foldl_closed_keep fun e h => he e (by simp [h])
      unfold stepDisk
      rw [if_pos hp]
      rcases he e (by simp) with ⟨q, rfl⟩ | ⟨q, rfl⟩ <;> rfl
    · obtain ⟨e', h1, h2⟩ := h
      refine ih (fun e h => he e (by simp [h])) ⟨e', ?_, h2⟩ _
      rcases List.mem_cons.1 h1 with rfl | h1
      · exact absurd h2 hp
      · exact h1

/-- A file that was opened or not, but never closed. -/
def NeverClosed (p : Text) (tr : List Ev) : Prop := ∀ e ∈ tr, e ≠ .finalized p ∧ e ≠ .dropped p

theorem NeverClosed.append {p : Text} {a b : List Ev} (h : NeverClosed p a)
    (hb : ∀ e ∈ b, e ≠ .finalized p ∧ e ≠ .dropped p) : NeverClosed p (a ++ b) := by
  intro e he
  rcases List.mem_append.1 he with he | he
  · exact h e he
  · exact hb e he

theorem NeverClosed.about {p : Text} {tr tr' : List Ev} (h : NeverClosed p tr) (ha : about p tr' = about p tr) :
    NeverClosed p tr' := by
  intro e he
  by_cases hp : e.path = p
  · have : e ∈ AZ.about p tr := by
      rw [← ha]
      exact List.mem_filter.2 ⟨he, by simpa using hp⟩
    exact h e (List.mem_filter.1 this).1
  · exact ⟨fun e1 => hp (by rw [e1]; rfl), fun e1 => hp (by rw [e1]; rfl)⟩

/-- Nothing need have reached the operating system. -/
theorem NeverClosed.file {p : Text} {tr : List Ev} (h : NeverClosed p tr) : (disk p tr).file = none ∨ (disk p tr).file = some [] := by
  unfold disk
  have h0 : (⟨none, []⟩ : Disk).file = none ∨ (⟨none, []⟩ : Disk).file = some [] := .inl rfl
  generalize (⟨none, []⟩ : Disk) = d at h0
  induction tr generalizing d with
  | nil => exact h0
  | cons e es ih =>
    rw [List.foldl_cons]
    refine ih (fun e he => h e (by simp [he])) _ ?_
    unfold stepDisk
    split
    · rename_i hp
      cases e with
      | opened q => exact .inr rfl
      | wrote q o x => exact h0
      | finalized q => exact absurd (congrArg Ev.finalized hp) (h _ List.mem_cons_self).1
      | dropped q => exact absurd (congrArg Ev.dropped hp) (h _ List.mem_cons_self).2
    · exact h0

theorem NeverClosed.image {p : Text} {tr : List Ev} (h : NeverClosed p tr) :
    ∃ c, WholeImage p tr c ∧ (c = none ∨ c = some []) := by
  refine ⟨(disk p tr).file, ⟨0, ?_⟩, h.file⟩
  rcases h.file with h | h <;> rw [h] <;> rfl

theorem quiet_image {p : Text} {tr : List Ev} (h : (disk p tr).pending = []) {c : Option Bytes} (hc : TornImage p tr c) :
    c = (disk p tr).file := by
  obtain ⟨k, j, rfl⟩ := hc
  rw [h]
  cases (disk p tr).file <;> simp [emit]

/-- What a writer may still hold in the buffers of its sinks, and that its document has never been closed. -/
structure Buffered (cfg : WConfig) (st : WState) : Prop where
  own : ∀ p ∈ st.dataSinks, ∃ g l, p = objectPath cfg g l
  quiet : ∀ p, p ∉ st.dataSinks → p ≠ arrayMetaPath cfg → (disk p st.trace).pending = []
  doc : NeverClosed (arrayMetaPath cfg) st.trace
  docQuiet : st.metaSink = false → (disk (arrayMetaPath cfg) st.trace).pending = []

section
variable {env : Env} {cfg : WConfig} {st st' : WState}

theorem Buffered.of_eq (h : Buffered cfg st) (h1 : st'.trace = st.trace) (h2 : st'.dataSinks = st.dataSinks)
    (h3 : st'.metaSink = st.metaSink) : Buffered cfg st' := by
  obtain ⟨a, b, c, d⟩ := h
  exact ⟨by rw [h2]; exact a, by rw [h1, h2]; exact b, by rw [h1]; exact c, by rw [h1, h3]; exact d⟩

theorem Buffered.notDoc (h : Buffered cfg st) : arrayMetaPath cfg ∉ st.dataSinks := by
  intro hm
  obtain ⟨g, l, e⟩ := h.own _ hm
  exact objectPath_ne_meta cfg g l e.symm

theorem buffered_init (cfg : WConfig) : Buffered cfg (WState.init cfg) :=
  ⟨nofun, fun _ _ _ => rfl, nofun, fun _ => rfl⟩

theorem buffered_compress (h : Buffered cfg st) : Buffered cfg (compressBuffers env cfg st) := by
  unfold compressBuffers
  split
  · exact h
  · exact h.of_eq rfl rfl rfl

theorem buffered_make (h : Buffered cfg st) (hd : st.dataSinks = []) (hm : makeDataSinks env cfg st = some st') : Buffered cfg st' := by
  have hs := (ext_makeDataSinks hm).sinks h.own
  unfold makeDataSinks at hm
  split at hm
  · simp at hm
  · rename_i paths hp
    split at hm
    · cases hm
      have hne : arrayMetaPath cfg ∉ paths := by
        intro hm
        obtain ⟨g, l, e⟩ := hs _ hm
        exact objectPath_ne_meta cfg g l e.symm
      have ho : ∀ e ∈ paths.map Ev.opened, e.path ≠ arrayMetaPath cfg := by
        intro e he hep
        obtain ⟨q, hq, rfl⟩ := List.mem_map.1 he
        simp only [Ev.path] at hep
        rw [← hep] at hne
        exact hne hq
      refine ⟨hs, ?_, ?_, ?_⟩
      · intro p _ hpm
        dsimp only
        rw [disk_append]
        exact foldl_opened paths _ (h.quiet p (by rw [hd]; simp) hpm)
      · exact h.doc.append fun e he => by
          obtain ⟨q, hq, rfl⟩ := List.mem_map.1 he
          exact ⟨nofun, nofun⟩
      · intro hmq
        dsimp only
        rw [disk_append_other ho]
        exact h.docQuiet hmq
    · simp at hm

/-- Writes to open data sinks. -/
theorem Buffered.writes (h : Buffered cfg st) {evs : List Ev} (he : ∀ e ∈ evs, e.path ∈ st.dataSinks)
    (h1 : st'.trace = st.trace ++ evs) (h2 : st'.dataSinks = st.dataSinks) (h3 : st'.metaSink = st.metaSink) : Buffered cfg st' := by
  have hne : ∀ e ∈ evs, e.path ≠ arrayMetaPath cfg := fun e hm hp => h.notDoc (hp ▸ he e hm)
  refine ⟨by rw [h2]; exact h.own, ?_, ?_, ?_⟩
  · intro p hp hpm
    rw [h2] at hp
    rw [h1, disk_append_other]
    · exact h.quiet p hp hpm
    · intro e hm hep
      exact hp (hep ▸ he e hm)
  · rw [h1]
    refine h.doc.append fun e hm => ⟨?_, ?_⟩
    · rintro rfl; exact hne _ hm rfl
    · rintro rfl; exact hne _ hm rfl
  · rw [h1, h3, disk_append_other hne]
    exact h.docQuiet

theorem buffered_flushV2 (h : Buffered cfg st) (hf : flushImplV2 env cfg st = .ok st') : Buffered cfg st' := by
  unfold flushImplV2 at hf
  obtain ⟨_, hd, hf⟩ := Res.bind_eq_ok.1 hf
  rw [check_eq_ok, List.isEmpty_iff] at hd
  split at hf
  · simp at hf
  · rename_i st1 hm
    have h1 := buffered_make h hd hm
    obtain ⟨_, _, hf⟩ := Res.bind_eq_ok.1 hf
    simp only [Res.pure_eq, Res.ok.injEq] at hf
    subst hf
    refine h1.writes ?_ rfl rfl rfl
    intro e he
    obtain ⟨r, hr, her⟩ := List.mem_flatMap.1 he
    obtain ⟨⟨p, b⟩, hz, rfl⟩ := List.mem_map.1 hr
    rw [chunkJob_path her]
    exact (List.of_mem_zip hz).1

theorem buffered_flushV3 (h : Buffered cfg st) (hf : flushImplV3 env cfg st = .ok st') : Buffered cfg st' := by
  unfold flushImplV3 at hf
  dsimp only at hf
  split at hf
  · simp at hf
  · rename_i st1 hm
    have h1 : Buffered cfg st1 := by
      split at hm
      · rename_i he
        exact buffered_make h (List.isEmpty_iff.1 he) hm
      · cases hm; exact h
    obtain ⟨_, hlen, hf⟩ := Res.bind_eq_ok.1 hf
    rw [check_eq_ok] at hlen
    simp only [beq_iff_eq] at hlen
    split at hf
    · simp at hf
    · obtain ⟨roll, _, hf⟩ := Res.bind_eq_ok.1 hf
      obtain ⟨_, _, hf⟩ := Res.bind_eq_ok.1 hf
      simp only [Res.pure_eq, Res.ok.injEq] at hf
      subst hf
      refine h1.writes ?_ rfl rfl rfl
      intro e he
      obtain ⟨j, hj, hej⟩ := List.mem_flatMap.1 he
      obtain ⟨i, hi, rfl⟩ := List.mem_map.1 hj
      rw [shardJob_path e hej]
      have hi' : i < st1.dataSinks.length := by rw [hlen]; exact List.mem_range.1 hi
      have : st1.dataSinks.getD i [] = st1.dataSinks[i] := by
        rw [List.getD_eq_getElem?_getD, List.getElem?_eq_getElem hi']; rfl
      rw [this]
      exact List.getElem_mem hi'

theorem buffered_rollover (h : Buffered cfg st) (hr : rollover env st = .ok st') : Buffered cfg st' := by
  have hs := (ext_rollover (cfg := cfg) hr h.own).sinks h.own
  unfold rollover at hr
  obtain ⟨evs, he, hr⟩ := Res.bind_eq_ok.1 hr
  simp only [Res.pure_eq, Res.ok.injEq] at hr
  subst hr
  rw [finalizeSinks_paths he]
  have hcl : ∀ e ∈ st.dataSinks.map Ev.finalized, (∃ q, e = Ev.finalized q) ∨ ∃ q, e = Ev.dropped q := by
    intro e he
    obtain ⟨q, _, rfl⟩ := List.mem_map.1 he
    exact .inl ⟨q, rfl⟩
  have hne : ∀ e ∈ st.dataSinks.map Ev.finalized, e.path ≠ arrayMetaPath cfg := by
    intro e he hep
    obtain ⟨q, hq, rfl⟩ := List.mem_map.1 he
    exact h.notDoc (hep ▸ hq)
  refine ⟨hs, ?_, ?_, ?_⟩
  · intro p _ hpm
    dsimp only
    rw [disk_append]
    by_cases hp : p ∈ st.dataSinks
    · exact foldl_closed hcl ⟨_, List.mem_map_of_mem hp, rfl⟩ _
    · exact foldl_closed_keep hcl _ (h.quiet p hp hpm)
  · refine h.doc.append fun e hm => ⟨?_, ?_⟩
    · rintro rfl; exact hne _ hm rfl
    · rintro rfl; exact hne _ hm rfl
  · dsimp only
    rw [disk_append_other hne]
    exact h.docQuiet

/-- Writes to the document. -/
theorem Buffered.docWrites (h : Buffered cfg st) {evs : List Ev} (he : ∀ e ∈ evs, e.path = arrayMetaPath cfg)
    (hc : ∀ e ∈ evs, e ≠ .finalized (arrayMetaPath cfg) ∧ e ≠ .dropped (arrayMetaPath cfg))
    (h1 : st'.trace = st.trace ++ evs) (h2 : st'.dataSinks = st.dataSinks) (h3 : st'.metaSink = true) : Buffered cfg st' := by
  refine ⟨by rw [h2]; exact h.own, ?_, ?_, by rw [h3]; nofun⟩
  · intro p hp hpm
    rw [h2] at hp
    rw [h1, disk_append_other fun e hm hep => hpm (hep.symm.trans (he e hm))]
    exact h.quiet p hp hpm
  · rw [h1]
    exact h.doc.append hc

theorem buffered_document (h : Buffered cfg st) (hw : writeArrayMetadata env cfg st = .ok st') : Buffered cfg st' := by
  unfold writeArrayMetadata at hw
  dsimp only at hw
  obtain ⟨_, _, hw⟩ := Res.bind_eq_ok.1 hw
  obtain ⟨n, _, hw⟩ := Res.bind_eq_ok.1 hw
  have h1 : Buffered cfg (if st.metaSink then st else
      { st with metaSink := true, trace := st.trace ++ [.opened (arrayMetaPath cfg)] }) := by
    split
    · exact h
    · exact h.docWrites (evs := [.opened (arrayMetaPath cfg)]) (by simp [Ev.path]) (by simp) rfl rfl rfl
  have h2 : (if st.metaSink then st else
      { st with metaSink := true, trace := st.trace ++ [.opened (arrayMetaPath cfg)] }).metaSink = true := by
    split
    · assumption
    · rfl
  generalize (if st.metaSink then st else
      { st with metaSink := true, trace := st.trace ++ [.opened (arrayMetaPath cfg)] }) = s1 at *
  split at hw
  · simp only [Res.pure_eq, Res.ok.injEq] at hw
    subst hw
    exact h1.docWrites (evs := [.wrote (arrayMetaPath cfg) 0 (metaDoc cfg n)]) (by simp [Ev.path]) (by simp) rfl rfl h2
  · simp only [Res.pure_eq, Res.ok.injEq] at hw
    subst hw
    exact h1
  · simp at hw
  · simp at hw

theorem buffered_flush (h : Buffered cfg st) (hf : flush env cfg st = .ok st') : Buffered cfg st' := by
  rw [flush_seq] at hf
  split at hf
  · cases hf; exact h
  · obtain ⟨s2, k2, hf⟩ := Res.bind_eq_ok.1 hf
    obtain ⟨roll, _, hf⟩ := Res.bind_eq_ok.1 hf
    obtain ⟨s3, k3, hf⟩ := Res.bind_eq_ok.1 hf
    obtain ⟨s4, k4, hf⟩ := Res.bind_eq_ok.1 hf
    simp only [Res.pure_eq, Res.ok.injEq] at hf
    subst hf
    have h2 : Buffered cfg s2 := by
      unfold flushImpl at k2
      split at k2
      · exact buffered_flushV2 (buffered_compress h) k2
      · exact buffered_flushV3 (buffered_compress h) k2
    have h3 : Buffered cfg s3 := by
      split at k3
      · exact buffered_rollover h2 k3
      · cases k3; exact h2
    have h4 : Buffered cfg s4 := by
      split at k4
      · exact buffered_document h3 k4
      · cases k4; exact h3
    exact h4.of_eq rfl rfl rfl

theorem buffered_writeFrame {data : Bytes} {n : Nat} (h : Buffered cfg st) (hf : writeFrame env cfg data st = .ok (st', n)) :
    Buffered cfg st' := by
  rw [writeFrame_seq] at hf
  split at hf
  · cases hf; exact h
  · dsimp only at hf
    obtain ⟨r, _, hf⟩ := Res.bind_eq_ok.1 hf
    obtain ⟨_, _, hf⟩ := Res.bind_eq_ok.1 hf
    obtain ⟨fl, _, hf⟩ := Res.bind_eq_ok.1 hf
    obtain ⟨s2, k2, hf⟩ := Res.bind_eq_ok.1 hf
    simp only [Res.pure_eq, Res.ok.injEq, Prod.mk.injEq] at hf
    obtain ⟨rfl, _⟩ := hf
    have h0 : Buffered cfg (if st.bufs.isEmpty then { st with bufs := makeBuffers cfg.dims } else st) := by
      split
      · exact h.of_eq rfl rfl rfl
      · exact h
    generalize (if st.bufs.isEmpty then { st with bufs := makeBuffers cfg.dims } else st) = s0 at *
    split at k2
    · refine buffered_flush ?_ k2
      exact h0.of_eq rfl rfl rfl
    · cases k2; exact h0.of_eq rfl rfl rfl

theorem buffered_frames {fs : List Bytes} (h : Buffered cfg st) (hf : writeFrames env cfg fs st = .ok st') : Buffered cfg st' := by
  induction fs generalizing st with
  | nil => cases hf; exact h
  | cons f fs ih =>
    rw [writeFrames] at hf
    obtain ⟨⟨s1, n⟩, k1, hf⟩ := Res.bind_eq_ok.1 hf
    obtain ⟨_, _, hf⟩ := Res.bind_eq_ok.1 hf
    exact ih (buffered_writeFrame h k1) hf

/-- When the array writer has been destroyed, nothing is left in a buffer. -/
theorem finalized_quiet (h : Buffered cfg st) (hf : finalizeArray env cfg st = .ok st') (p : Text) :
    (disk p st'.trace).pending = [] := by
  rw [finalizeArray_seq] at hf
  obtain ⟨s1, k1, hf⟩ := Res.bind_eq_ok.1 hf
  obtain ⟨s2, k2, hf⟩ := Res.bind_eq_ok.1 hf
  simp only [Res.pure_eq, Res.ok.injEq] at hf
  subst hf
  dsimp only
  have h1 : Buffered cfg s1 := buffered_flush (h.of_eq (st' := { st with finalizing := true }) rfl rfl rfl) k1
  have hdr : ∀ e ∈ s2.dataSinks.map Ev.dropped, (∃ q, e = Ev.finalized q) ∨ ∃ q, e = Ev.dropped q := by
    intro e he
    obtain ⟨q, _, rfl⟩ := List.mem_map.1 he
    exact .inr ⟨q, rfl⟩
  have h2 : s2.dataSinks = s1.dataSinks ∧ (disk (arrayMetaPath cfg) s2.trace).pending = [] ∧
      ∀ q, q ≠ arrayMetaPath cfg → disk q s2.trace = disk q s1.trace := by
    split at k2
    · obtain ⟨_, _, k2⟩ := Res.bind_eq_ok.1 k2
      cases k2
      refine ⟨rfl, ?_, ?_⟩
      · dsimp only
        rw [disk_append]
        exact foldl_closed (by simp) ⟨_, List.mem_singleton.2 rfl, rfl⟩ _
      · intro q hq
        dsimp only
        exact disk_append_other (by simp [Ev.path]; exact fun e => hq e.symm)
    · rename_i hm
      cases k2
      exact ⟨rfl, h1.docQuiet (by simpa using hm), fun _ _ => rfl⟩
  obtain ⟨e1, e2, e3⟩ := h2
  rw [disk_append]
  by_cases hpm : p = arrayMetaPath cfg
  · rw [hpm]; exact foldl_closed_keep hdr _ e2
  · by_cases hp : p ∈ s2.dataSinks
    · exact foldl_closed hdr ⟨_, List.mem_map_of_mem hp, rfl⟩ _
    · refine foldl_closed_keep hdr _ ?_
      rw [e3 p hpm]
      exact h1.quiet p (by rw [← e1]; exact hp) hpm

end
end AZ
