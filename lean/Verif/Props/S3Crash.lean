import Verif.Lemmas.S3Crash
import Verif.Props.S3Documents
import Verif.Props.Exceptions
import Verif.Props.Crash
import Verif.Lemmas.Buffered

set_option linter.unusedSimpArgs false

/-!
# C72: the death of an S3 acquisition leaves only whole objects, the array document last

A crash state of a bucket is the bucket after any beginning of any schedule of the session (`SameOrder`: the worker threads may
execute the events of different objects in another order).
-/

namespace AZ
open Spec S3 Exc

theorem prefix_about {tr1 tr : List Ev} (h : tr1 <+: tr) (p : Text) : about p tr1 <+: about p tr := h.filter _

/-- **C72, one bucket, any history.** If no event follows the closing of an object (C65), then at every instant the bucket holds under
each name either what it held before the session or what it holds at the end: nothing partial is ever visible, whatever the server
answers. -/
theorem s3_history_whole {tr tr1 : List Ev} (h : ClosedForGood tr) (h1 : tr1 <+: tr) (P : Nat) (srv : Text → Nat → Reply)
    (junk : Bytes) (old : Text → Option Bytes) (p : Text) :
    (bucketAfter P srv junk old tr1 p).object = old p ∨
    (bucketAfter P srv junk old tr1 p).object = (bucketAfter P srv junk old tr p).object := by
  unfold bucketAfter
  by_cases hf : Ev.finalized p ∈ tr1
  · right
    obtain ⟨_, ha, _⟩ := closed_content h h1 hf none
    rw [objAfter_about ha]
  · left
    exact objAfter_unclosed _ _ _ _ hf

section
variable {w : World} {env0 env : Env} {fuel : Nat} {S : Settings} {s0 : SState} {st : XStream} {rs : List Status}

/-- **C72, whole objects.** Any stream, any calls, each meeting storage that behaves in its own way, calls going on after errors, with or
without a final destroy call: at every instant of every schedule the bucket holds under each name either what it held before the
session or what it holds at the end. -/
theorem s3_crash_whole (h : createStream w env0 fuel (some S) = some (.ok s0)) {calls : List (Env × Bytes)}
    (hb : maxFrames s0.buf.length (calls.map (·.2)) + 1 < 2 ^ 32) (hc : callsX calls (XStream.of s0) = some (st, rs))
    {tr tr' tr1 : List Ev} (ht : tr = st.trace ∨ ∃ last ok, destroyX last st = some (tr, ok))
    (hso : ∀ p, about p tr' = about p tr) (h1 : tr1 <+: tr') (P : Nat) (srv : Text → Nat → Reply)
    (junk : Bytes) (old : Text → Option Bytes) (p : Text) :
    (bucketAfter P srv junk old tr1 p).object = old p ∨
    (bucketAfter P srv junk old tr1 p).object = (bucketAfter P srv junk old tr p).object := by
  have hC : ClosedForGood tr' := by
    rcases ht with rfl | ⟨last, ok, hd⟩
    · exact (closed_for_good (env := env0) h hb hc).1 _ hso
    · exact ((closed_for_good (env := last) h hb hc).2 _ _ hd).2 _ hso
  have := s3_history_whole hC h1 P srv junk old p
  unfold bucketAfter at this ⊢
  rwa [objAfter_about (hso p)] at this

end

/-- In the trace of a finished array writer only dropped sinks follow the closing of the document. -/
theorem document_closed_last {env : Env} {c : WConfig} {st stf : WState} (hB : Buffered c st) (hf : finalizeArray env c st = .ok stf)
    {pre post : List Ev} (he : stf.trace = pre ++ Ev.finalized (arrayMetaPath c) :: post) : ∀ e ∈ post, ∃ q, e = Ev.dropped q := by
  rw [finalizeArray_seq] at hf
  obtain ⟨s1, k1, hf⟩ := Res.bind_eq_ok.1 hf
  obtain ⟨s2, k2, hf⟩ := Res.bind_eq_ok.1 hf
  simp only [Res.pure_eq, Res.ok.injEq] at hf
  subst hf
  dsimp only at he
  have h1 : Buffered c s1 := buffered_flush (hB.of_eq (st' := { st with finalizing := true }) rfl rfl rfl) k1
  have hno : Ev.finalized (arrayMetaPath c) ∉ s1.trace := fun hm => (h1.doc _ hm).1 rfl
  have hdr : ∀ (ps : List Text), Ev.finalized (arrayMetaPath c) ∉ ps.map Ev.dropped := by
    intro ps hm
    obtain ⟨q, _, hq⟩ := List.mem_map.1 hm
    cases hq
  split at k2
  · obtain ⟨_, _, k2⟩ := Res.bind_eq_ok.1 k2
    cases k2
    dsimp only at he
    rw [List.append_assoc, List.singleton_append] at he
    obtain ⟨_, _, e2⟩ := (List.append_cons_inj_of_notMem hno (hdr s1.dataSinks)).1 he
    intro e hm
    rw [← e2] at hm
    obtain ⟨q, _, rfl⟩ := List.mem_map.1 hm
    exact ⟨q, rfl⟩
  · cases k2
    exfalso
    have : Ev.finalized (arrayMetaPath c) ∈ s1.trace ++ s1.dataSinks.map Ev.dropped := by
      rw [he]; simp
    rcases List.mem_append.1 this with hm | hm
    · exact hno hm
    · exact hdr _ hm

theorem objAfter_drops (P : Nat) (r : Nat → Reply) (junk : Bytes) (old : Option Bytes) (p : Text) (tr : List Ev) {post : List Ev}
    (h : ∀ e ∈ post, ∃ q, e = Ev.dropped q) :
    (objAfter P r junk old p (tr ++ post)).object = (objAfter P r junk old p tr).object := by
  unfold objAfter
  rw [List.foldl_append]
  generalize tr.foldl (stepObj P r junk p) ⟨none, old, true⟩ = b
  induction post generalizing b with
  | nil => rfl
  | cons e es ih =>
    rw [List.foldl_cons, ih (fun e he => h e (by simp [he]))]
    obtain ⟨q, rfl⟩ := h e (by simp)
    by_cases hq : q = p
    · subst hq
      rw [stepObj_drop]
    · rw [stepObj_skip (by exact hq)]

section
variable {w : World} {env : Env} {fuel : Nat} {s : Settings} {cfg : WConfig} {cfgs : List WConfig}
  {a y x : DimProps} {inner : List DimProps} {root : Text} {calls : List (List Bytes)}
  {st : SState} {ns : List Nat} {tr : List Ev}

/-- The document of a level is closed after the last object of the level. -/
theorem level_document_last (h : Setup w fuel s cfg cfgs)
    (hd : s.dimensions = some (a :: (inner ++ [y, x])))
    (hf : ∀ c ∈ calls, ∀ f ∈ c, f.length = y.arraySize * x.arraySize * itemSize s.dataType)
    (hrun : runStream w env fuel s (calls.map List.flatten) = some (.ok (st, ns, tr)))
    {i : Nat} {c : WConfig} (hc : cfgs[i]? = some c) {tr' tr1 : List Ev} (hso : SameOrder (arrayMetaPath c) tr tr') (h1 : tr1 <+: tr')
    (P : Nat) (srv : Text → Nat → Reply) (junk : Bytes) (old : Text → Option Bytes)
    (hvis : (bucketAfter P srv junk old tr1 (arrayMetaPath c)).object ≠ old (arrayMetaPath c)) {p : Text} (hp : Owned c p) :
    (bucketAfter P srv junk old tr1 p).object = (bucketAfter P srv junk old tr p).object := by
  obtain ⟨hF, hF0⟩ := frame_size h hd
  rw [← hF] at hf
  obtain ⟨hS, _⟩ := session_ok h.commit h.levels hF0 hf hrun
  obtain ⟨stf, k1, _⟩ := hS.level i c hc
  have hfin : Ev.finalized (arrayMetaPath c) ∈ tr1 := by
    by_contra hne
    exact hvis (objAfter_unclosed _ _ _ _ hne)
  have hord := hS.ordered i c hc stf k1 (fun q => decide (q = p ∨ q = arrayMetaPath c)) (by
    intro q hq
    rcases of_decide_eq_true hq with rfl | rfl
    · exact hp
    · exact .inl rfl)
  unfold within at hord
  have hpre : tr1.filter (fun e => decide (e.path = p ∨ e.path = arrayMetaPath c)) <+:
      stf.trace.filter (fun e => decide (e.path = p ∨ e.path = arrayMetaPath c)) := by
    rw [← hord, ← hso p]
    exact h1.filter _
  obtain ⟨rest, hrest⟩ := hpre
  have hm : Ev.finalized (arrayMetaPath c) ∈ tr1.filter (fun e => decide (e.path = p ∨ e.path = arrayMetaPath c)) :=
    List.mem_filter.2 ⟨hfin, by simp [Ev.path]⟩
  obtain ⟨u, v, huv⟩ := List.append_of_mem hm
  rw [huv, List.append_assoc, List.cons_append] at hrest
  obtain ⟨l1, l2, e1, _, e3⟩ := List.filter_eq_append_iff.1 hrest.symm
  obtain ⟨l3, l4, e4, _, _, e5⟩ := List.filter_eq_cons_iff.1 e3
  unfold runArray at k1
  obtain ⟨s1, k3, k4⟩ := Res.bind_eq_ok.1 k1
  have hdrop := document_closed_last (buffered_frames (buffered_init c) k3) k4 (pre := l1 ++ l3) (post := l4) (by
    rw [e1, e4, List.append_assoc])
  have hr : ∀ e ∈ rest, ∃ q, e = Ev.dropped q := by
    intro e he
    have : e ∈ l4.filter (fun e => decide (e.path = p ∨ e.path = arrayMetaPath c)) := by
      rw [e5]; exact List.mem_append.2 (.inr he)
    exact hdrop e (List.mem_filter.1 this).1
  have hab : about p tr = about p tr1 ++ about p rest := by
    have e6 : tr.filter (fun e => decide (e.path = p ∨ e.path = arrayMetaPath c)) =
        tr1.filter (fun e => decide (e.path = p ∨ e.path = arrayMetaPath c)) ++ rest := by
      rw [hord, huv, ← hrest, List.append_assoc, List.cons_append]
    have e7 : ∀ l : List Ev, about p l = about p (l.filter (fun e => decide (e.path = p ∨ e.path = arrayMetaPath c))) := by
      intro l
      unfold about
      rw [List.filter_filter]
      congr 1
      funext e
      by_cases he : e.path = p <;> simp [he]
    rw [e7 tr, e6, e7 tr1]
    unfold about
    rw [List.filter_append]
  unfold bucketAfter
  rw [objAfter_filter _ _ _ _ _ tr, hab, objAfter_drops, ← objAfter_filter]
  intro e he
  exact hr e (List.mem_filter.1 he).1

/-- **C72, the document last.** Both versions, all levels, any storage and compressor for which the session succeeds, any server: if,
at some instant of some schedule, the array document of a level is not what it was before the session, then every chunk object
(V2) or shard object (V3) of the level already is what it is at the end of the session. -/
theorem s3_document_last (h : Setup w fuel s cfg cfgs)
    (hd : s.dimensions = some (a :: (inner ++ [y, x]))) (hr : InBucket s root)
    (hf : ∀ c ∈ calls, ∀ f ∈ c, f.length = y.arraySize * x.arraySize * itemSize s.dataType)
    (hrun : runStream w env fuel s (calls.map List.flatten) = some (.ok (st, ns, tr)))
    {i : Nat} (hi : i < cfgs.length) {tr' tr1 : List Ev} (hso : SameOrder (root ++ '/' :: arrayDocName s.version i) tr tr')
    (h1 : tr1 <+: tr') (P : Nat) (srv : Text → Nat → Reply) (junk : Bytes) (old : Text → Option Bytes)
    (hvis : (bucketAfter P srv junk old tr1 (root ++ '/' :: arrayDocName s.version i)).object ≠
      old (root ++ '/' :: arrayDocName s.version i)) (g : Nat) (l : List Nat) :
    (s.version = 2 → (bucketAfter P srv junk old tr1 (levelDir root i ++ chunkKey (g :: l))).object =
      (bucketAfter P srv junk old tr (levelDir root i ++ chunkKey (g :: l))).object) ∧
    (s.version = 3 → (bucketAfter P srv junk old tr1 (levelDirV3 root i ++ chunkKey (g :: l))).object =
      (bucketAfter P srv junk old tr (levelDirV3 root i ++ chunkKey (g :: l))).object) := by
  have hc : cfgs[i]? = some cfgs[i] := List.getElem?_eq_getElem hi
  generalize cfgs[i] = c at hc
  have hdoc := hr.located.arrayDoc h hc
  rw [← hdoc] at hso hvis
  refine ⟨fun hV => ?_, fun hV => ?_⟩
  · rw [← levelDir_located h hr.located hc, ← objectPath_key (h.versionV2 hV c (List.mem_of_getElem? hc))]
    exact level_document_last h hd hf hrun hc hso h1 P srv junk old hvis (.inr ⟨g, l, rfl⟩)
  · rw [← levelDirV3_located h hr.located hc, ← objectPath_keyV3 (h.versionV3 hV c (List.mem_of_getElem? hc))]
    exact level_document_last h hd hf hrun hc hso h1 P srv junk old hvis (.inr ⟨g, l, rfl⟩)

/-- **C72, what a reader gets, V2.** If the process dies at an instant at which the array document of level 0 has appeared in a bucket
that held nothing of this array before, then every element of the array reads back from the bucket: the pixel of the frame
appended for it, zeros if there is none. -/
theorem s3_v2_crash_reads (h : Setup w fuel s cfg cfgs) (hr : InBucket s root) (hE : StorageOk env s) (hne : NonemptyOutput env s)
    (ho : SmallOverhead env) (hV : s.version = 2)
    (hd : s.dimensions = some (a :: (inner ++ [y, x]))) {decode : Bytes → Option Bytes} (hdec : Decodes env s decode)
    (hn : calls.flatten.length < 2 ^ 32)
    (hf : ∀ c ∈ calls, ∀ f ∈ c, f.length = y.arraySize * x.arraySize * itemSize s.dataType)
    {P : Nat} (hP : 0 < P)
    (hsz : prod ((a :: (inner ++ [y, x])).map (·.chunkSize)) * itemSize s.dataType + 16 ≤ P * (2 ^ 32 - 1))
    {srv : Text → Nat → Reply} (hsrv : ∀ p, Spec.Healthy (srv p)) {junk : Bytes} (hj : junk.length = P)
    {old : Text → Option Bytes} (hold : ∀ g l, old (levelDir root 0 ++ chunkKey (g :: l)) = none)
    (hrun : runStream w env fuel s (calls.map List.flatten) = some (.ok (st, ns, tr)))
    {tr' tr1 : List Ev} (hso : SameOrder (root ++ '/' :: arrayDocName 2 0) tr tr') (h1 : tr1 <+: tr')
    (hvis : (bucketAfter P srv junk old tr1 (root ++ '/' :: arrayDocName 2 0)).object ≠ old (root ++ '/' :: arrayDocName 2 0))
    (t : Nat) {i : List Nat} {py px : Nat} (hi : InBounds (inner.map (·.arraySize)) i) (hpy : py < y.arraySize) (hpx : px < x.arraySize) :
    readV2 (fun p => (bucketAfter P srv junk old tr1 p).object) (levelDir root 0) decode
      ((a :: (inner ++ [y, x])).map (·.chunkSize)) (itemSize s.dataType) (t :: (i ++ [py, px])) =
    some (match calls.flatten[t * prod (inner.map (·.arraySize)) + ravel (inner.map (·.arraySize)) i]? with
      | some f => pixelOf f x.arraySize (itemSize s.dataType) py px
      | none => List.replicate (itemSize s.dataType) 0) := by
  obtain ⟨st', tr2, e1, _, _, e4⟩ := s3_v2_uploaded h hr hE hne ho hV hd hdec hn hf hP hsz hsrv hj old
  rw [hrun] at e1
  simp only [Option.some.injEq, Res.ok.injEq, Prod.mk.injEq] at e1
  obtain ⟨_, _, rfl⟩ := e1
  refine Eq.trans ?_ (e4 hold t i py px hi hpy hpx)
  obtain ⟨rest, hrest⟩ := levelConfigs_head h.levels
  have hl : 0 < cfgs.length := by rw [hrest]; simp
  rw [← hV] at hso hvis
  have key := fun g l => (s3_document_last h hd hr hf hrun hl hso h1 P srv junk old hvis g l).1 hV
  unfold readV2
  dsimp only
  have hg : gridOf ((a :: (inner ++ [y, x])).map (·.chunkSize)) (t :: (i ++ [py, px])) =
      t / a.chunkSize :: gridOf ((inner ++ [y, x]).map (·.chunkSize)) (i ++ [py, px]) := rfl
  rw [hg, key]

end

/-- Two levels: frames of 4 × 4 pixels in chunks of one frame and 2 × 2 pixels, on S3, Zarr V2. -/
def Sample.duoS3 : Settings := { Sample.slabS3 2 2 1 with
  dimensions := some [⟨some "t".toList, 2, 0, 1, 1⟩, ⟨some "y".toList, 0, 4, 2, 1⟩, ⟨some "x".toList, 0, 4, 2, 1⟩]
  multiscale := true }

theorem Sample.duoS3Setup : ∃ cfg cfgs, Setup Sample.world 9 Sample.duoS3 cfg cfgs ∧ 2 ≤ cfgs.length :=
  ⟨_, _, ⟨rfl, rfl, rfl, rfl, by decide, fun _ => by decide⟩, by decide⟩

/-- Two frames at two levels, part size 5 MiB, any server that confirms every request. If the process dies right before the last
event of the session, the array document of level 0 is in the bucket, and the last pixel of the second frame reads back. -/
example {srv : Text → Nat → Reply} (hsrv : ∀ p, Spec.Healthy (srv p)) {junk : Bytes} (hj : junk.length = 5 * 2 ^ 20) :
    ∃ st ns tr tr1, runStream Sample.world Sample.env 9 Sample.duoS3
      [[0, 1, 2, 3, 4, 5, 6, 7, 8, 9, 10, 11, 12, 13, 14, 15], [16, 17, 18, 19, 20, 21, 22, 23, 24, 25, 26, 27, 28, 29, 30, 31]] =
        some (.ok (st, ns, tr)) ∧
    tr1 <+: tr ∧ tr1 ≠ tr ∧
    readV2 (fun p => (bucketAfter (5 * 2 ^ 20) srv junk (fun _ => none) tr1 p).object) "a/0/".toList some
      [1, 2, 2] 1 [1, 3, 3] = some [31] := by
  have h : (match runStream Sample.world Sample.env 9 Sample.duoS3
      [[0, 1, 2, 3, 4, 5, 6, 7, 8, 9, 10, 11, 12, 13, 14, 15], [16, 17, 18, 19, 20, 21, 22, 23, 24, 25, 26, 27, 28, 29, 30, 31]] with
    | some (.ok (_, _, tr)) => decide (tr.take (tr.length - 1) ≠ tr) &&
        match about "a/0/.zarray".toList (tr.take (tr.length - 1)) with
        | [e1, .wrote q1 0 d1, .wrote q2 0 d2, e2] => decide (e1 = .opened "a/0/.zarray".toList ∧ q1 = "a/0/.zarray".toList ∧
            q2 = "a/0/.zarray".toList ∧ e2 = .finalized "a/0/.zarray".toList) && !d1.isEmpty && !d2.isEmpty &&
            decide (d1.length < 1000) && decide (d2.length < 1000)
        | _ => false
    | _ => false) = true := by decide +kernel
  split at h
  · rename_i st ns tr hrun
    simp only [Bool.and_eq_true, decide_eq_true_eq] at h
    refine ⟨st, ns, tr, _, hrun, List.take_prefix _ _, h.1, ?_⟩
    obtain ⟨cfg, cfgs, hS, _⟩ := Sample.duoS3Setup
    have := s3_v2_crash_reads (calls := [[[0, 1, 2, 3, 4, 5, 6, 7, 8, 9, 10, 11, 12, 13, 14, 15]], [[16, 17, 18, 19, 20, 21, 22, 23, 24, 25, 26, 27, 28, 29, 30, 31]]]) (decode := some)
      hS (⟨rfl, _, rfl, by decide⟩ : InBucket Sample.duoS3 "a".toList) Sample.storageOk Sample.nonempty Sample.overhead rfl
      (inner := []) rfl (fun _ => rfl) (by decide) (by
        intro c hc f hf
        rcases List.mem_cons.1 hc with rfl | hc
        · rw [List.mem_singleton.1 hf]; rfl
        · rw [List.mem_singleton.1 hc] at hf
          rw [List.mem_singleton.1 hf]; rfl) (P := 5 * 2 ^ 20) (by decide) (by decide) hsrv hj (old := fun _ => none)
      (fun _ _ => rfl) hrun (tr' := tr) (tr1 := tr.take (tr.length - 1)) (fun _ => rfl) (List.take_prefix _ _) (by
        have e : "a".toList ++ '/' :: arrayDocName 2 0 = "a/0/.zarray".toList := by decide
        rw [e]
        have h2 := h.2
        generalize "a/0/.zarray".toList = doc at h2 ⊢
        split at h2
        · rename_i e1 q1 d1 q2 d2 e2 hab
          simp only [Bool.and_eq_true, decide_eq_true_eq, Bool.not_eq_true', List.isEmpty_eq_false_iff] at h2
          obtain ⟨⟨⟨⟨⟨rfl, rfl, rfl, rfl⟩, n1⟩, n2⟩, l1⟩, l2⟩ := h2
          unfold bucketAfter
          dsimp only
          have hf : about q2 (tr.take (tr.length - 1)) =
              about q2 (.opened q2 :: (wrotes q2 [(0, d1), (0, d2)] ++ [.finalized q2])) := by
            rw [hab, about_all]
            · rfl
            · intro e he
              simp only [wrotes, List.map_cons, List.map_nil, List.cons_append, List.nil_append, List.mem_cons,
                List.not_mem_nil, or_false] at he
              rcases he with rfl | rfl | rfl | rfl <;> rfl
          have hd1 : d1.length / (5 * 2 ^ 20) * (5 * 2 ^ 20) ≤ 0 := by omega
          have ho1 : overlay [] (0, d1) = d1 := by simp [overlay, n1]
          have ho2 : overlay d1 (0, d2) = d2 := by simp [overlay, n2]
          rw [objAfter_about hf, objAfter_closed (ws := [(0, d1), (0, d2)]) (by decide) (hsrv _) hj
            ⟨fun _ => ⟨by simp, by simp⟩, fun _ => ⟨by rw [ho1]; exact hd1, by simp⟩, trivial⟩
            ⟨by simp, by rw [ho1]; omega, by rw [ho1, ho2]; show d2.length ≤ _; omega⟩]
          simp only [List.foldl_cons, List.foldl_nil, ho1, ho2, if_neg n2]
          simp
        · cases h2) 1 (i := []) (py := 3) (px := 3) trivial (by decide) (by decide)
    exact this
  · cases h

/-- A server that confirms every request. -/
def Sample.server : Text → Nat → Reply := fun _ _ => .confirmed ['x']

/-- Six calls, one of which cannot create its sinks: the hypotheses of `s3_crash_whole` are met. -/
example : ∃ s0 st rs, createStream Sample.world Sample.env 9 (some (Sample.slabS3 2 2 1)) = some (.ok s0) ∧
    callsX [(Sample.env, [5]), (Sample.env, [6]), (Sample.noDirs, [7]), (Sample.noDirs, [8]), (Sample.env, [9])] (XStream.of s0) =
      some (st, rs) ∧ none ∈ rs ∧ st.trace ≠ [] ∧
    ∀ tr1, tr1 <+: st.trace → (bucketAfter 1024 Sample.server (List.replicate 1024 0) (fun _ => none) tr1 "a/0/0/0/0".toList).object = none ∨
      (bucketAfter 1024 Sample.server (List.replicate 1024 0) (fun _ => none) tr1 "a/0/0/0/0".toList).object =
      (bucketAfter 1024 Sample.server (List.replicate 1024 0) (fun _ => none) st.trace "a/0/0/0/0".toList).object := by
  have h : (match createStream Sample.world Sample.env 9 (some (Sample.slabS3 2 2 1)) with
    | some (.ok s0) =>
      decide (maxFrames s0.buf.length [[5], [6], [7], [8], [9]] + 1 < 2 ^ 32) &&
      match callsX [(Sample.env, [5]), (Sample.env, [6]), (Sample.noDirs, [7]), (Sample.noDirs, [8]), (Sample.env, [9])] (XStream.of s0) with
      | some (st, rs) => rs.contains none && !st.trace.isEmpty
      | none => false
    | _ => false) = true := by decide +kernel
  split at h
  · rename_i s0 h0
    simp only [Bool.and_eq_true, decide_eq_true_eq] at h
    obtain ⟨hm, h⟩ := h
    split at h
    · rename_i st rs h1
      simp only [Bool.and_eq_true, List.contains_iff_mem] at h
      refine ⟨s0, st, rs, h0, h1, h.1, ?_, ?_⟩
      · intro he
        have := h.2
        rw [he] at this
        cases this
      · intro tr1 ht
        exact s3_crash_whole (calls := [(Sample.env, [5]), (Sample.env, [6]), (Sample.noDirs, [7]), (Sample.noDirs, [8]), (Sample.env, [9])]) h0 hm h1 (.inl rfl) (fun _ => rfl) ht 1024 Sample.server (List.replicate 1024 0) (fun _ => none) _
    · cases h
  · cases h

end AZ
