import Verif.Props.S3Streams
import Verif.Props.Failures

set_option linter.unusedSimpArgs false

/-! # C79: what is reported stored on S3 is stored, whatever the server answers -/

namespace AZ.S3
open Spec

/-- After a failure the sinks of an object never look successful again. -/
theorem ok_stays {P : Nat} {r : Nat → Reply} {junk : Bytes} {p : Text} (tr : List Ev) {b : Obj}
    (h : (tr.foldl (stepObj P r junk p) b).ok = true) : b.ok = true := by
  induction tr generalizing b with
  | nil => exact h
  | cons e tr ih =>
    have h1 := ih h
    unfold stepObj at h1
    split at h1
    · exact h1
    · split at h1
      · exact h1
      · split at h1
        · cases h1
        · split at h1 <;> first | exact h1 | cases h1
      · split at h1
        · cases h1
        · split at h1 <;> first | exact h1 | cases h1
      · exact h1

/-- One sink, any server: if the write and the finalization returned true, the object is what was written. -/
theorem objAfter_one {P : Nat} (hP : 0 < P) {r : Nat → Reply} {junk : Bytes} (hj : junk.length = P)
    {old : Option Bytes} {p : Text} {d : Bytes} (hd : d ≠ []) (hn : d.length ≤ P * (2 ^ 32 - 1))
    (hok : (objAfter P r junk old p [.opened p, .wrote p 0 d, .finalized p]).ok = true) :
    (objAfter P r junk old p [.opened p, .wrote p 0 d, .finalized p]).object = some d := by
  unfold objAfter at hok ⊢
  rw [List.foldl_cons, stepObj_open, List.foldl_cons] at hok ⊢
  dsimp only at hok ⊢
  have h1 := ok_stays _ hok
  have hw : ∃ s1, write P r (fuelFor d) 0 d (Sink.new junk) = some (.returned true s1) := by
    unfold stepObj at h1
    rw [if_neg (by simp [Ev.path])] at h1
    dsimp only at h1
    split at h1
    · next s1 he => exact ⟨s1, he⟩
    · cases h1
    · cases h1
    · cases h1
  obtain ⟨s1, he⟩ := hw
  have hov : overlay [] (0, d) = d := by
    unfold overlay
    dsimp only
    rw [if_neg (by simpa using hd)]
    simp
  obtain ⟨k1, c1, b1⟩ := write_core hP (core_new hj) hP (fun _ => by simp) (by rw [hov]; exact hn) he
  rw [hov] at c1
  have hst : stepObj P r junk p ⟨some (Sink.new junk), old, true⟩ (.wrote p 0 d) =
      ⟨some s1, (Spec.object (Spec.exchange s1.log)).or old, true⟩ := by
    unfold stepObj
    rw [if_neg (by simp [Ev.path])]
    dsimp only
    rw [he]
  rw [hst] at hok ⊢
  rw [List.foldl_cons, List.foldl_nil] at hok ⊢
  unfold stepObj at hok ⊢
  rw [if_neg (by simp [Ev.path])] at hok ⊢
  dsimp only at hok ⊢
  split at hok
  · next s2 hf =>
    dsimp only
    rw [(flush_object hP c1 b1 hn hf).1, if_neg hd]
    rfl
  · cases hok
  · cases hok
  · cases hok

end AZ.S3

namespace AZ
open Spec S3

section
variable {w : World} {env : Env} {fuel : Nat} {s : Settings} {cfg : WConfig} {cfgs : List WConfig}
  {a y x : DimProps} {inner : List DimProps} {root : Text} {calls : List (List Bytes)} {st : SState}

theorem readV2_congr {f g : Text → Option Bytes} {dir : Text} {decode : Bytes → Option Bytes} {chunks : List Nat} {n : Nat} {i : List Nat}
    (h : f (dir ++ chunkKey (gridOf chunks i)) = g (dir ++ chunkKey (gridOf chunks i))) :
    readV2 f dir decode chunks n i = readV2 g dir decode chunks n i := by
  unfold readV2
  rw [h]

/-- **C79 (partial), Zarr V2.** A stream over storage that reports its failures (`Honest`), with an S3 server that answers the
requests in any way. If the append calls so far and one more call (of any size, for instance of no bytes) have returned success,
then every chunk that those calls completed, at every level, is in the bucket, and every element of a completed chunk of level 0
reads back from there. `ok` of the chunk's object: its sink returned true for the calls that the stream has seen succeed, which are
the ones in its history. Missing: the chunks flushed by destroy, and version 3 (C30, C32). -/
theorem s3_success_uploaded_partial (h : Setup w fuel s cfg cfgs) (hz : SizesInRange s) (hr : InBucket s root)
    (hH : Honest env) (hE : StorageOk (perfect env) s) (hne : NonemptyOutput env s)
    (ho : SmallOverhead env) (hV : s.version = 2) (hd : s.dimensions = some (a :: (inner ++ [y, x])))
    {decode : Bytes → Option Bytes} (hdec : Decodes env s decode)
    (hn : calls.flatten.length < 2 ^ 32)
    (hf : ∀ c ∈ calls, ∀ f ∈ c, f.length = y.arraySize * x.arraySize * itemSize s.dataType)
    (hre : Reached w env fuel s (calls.map List.flatten) st)
    {f : Nat} {more : Bytes} {r : SState × Nat} (hm : append env f more st = some (.ok r))
    {P : Nat} (hP : 0 < P)
    (hsz : prod ((a :: (inner ++ [y, x])).map (·.chunkSize)) * itemSize s.dataType + 16 ≤ P * (2 ^ 32 - 1))
    {srv : Text → Nat → Reply} {junk : Bytes} (hj : junk.length = P) {old : Text → Option Bytes} :
    (∀ i g l, i < cfgs.length →
      (g + 1) * (levelChunk a.isChannel a.arraySize a.chunkSize i * prod (sizesAt i inner)) ≤ calls.flatten.length / 2 ^ i →
      InBounds (List.zipWith ceilDiv (sizesAt i (inner ++ [y, x])) (chunksAt i (inner ++ [y, x]))) l →
      (bucketAfter P srv junk old st.trace (levelDir root i ++ chunkKey (g :: l))).ok = true →
      ∃ b, (bucketAfter P srv junk old st.trace (levelDir root i ++ chunkKey (g :: l))).object = some b ∧
        fileAfter (levelDir root i ++ chunkKey (g :: l)) st.trace = some b) ∧
    ∀ (t : Nat) (i : List Nat) (py px : Nat), InBounds (inner.map (·.arraySize)) i → py < y.arraySize → px < x.arraySize →
      (t / a.chunkSize + 1) * (a.chunkSize * prod (inner.map (·.arraySize))) ≤ calls.flatten.length →
      (bucketAfter P srv junk old st.trace (levelDir root 0 ++
        chunkKey (gridOf ((a :: (inner ++ [y, x])).map (·.chunkSize)) (t :: (i ++ [py, px]))))).ok = true →
      readV2 (fun p => (bucketAfter P srv junk old st.trace p).object) (levelDir root 0) decode
        ((a :: (inner ++ [y, x])).map (·.chunkSize)) (itemSize s.dataType) (t :: (i ++ [py, px])) =
      (calls.flatten[t * prod (inner.map (·.arraySize)) + ravel (inner.map (·.arraySize)) i]?).map
        (fun f => pixelOf f x.arraySize (itemSize s.dataType) py px) := by
  have hD := dimsOf h.valid h.commit hd
  rw [← hD.frame] at hf
  obtain ⟨st0, ns, h0, h1⟩ := success_means_stored_partial hH hV hre hm
  have key : ∀ i g l c, cfgs[i]? = some c →
      (g + 1) * (levelChunk a.isChannel a.arraySize a.chunkSize i * prod (sizesAt i inner)) ≤ calls.flatten.length / 2 ^ i →
      InBounds (List.zipWith ceilDiv (sizesAt i (inner ++ [y, x])) (chunksAt i (inner ++ [y, x]))) l →
      (bucketAfter P srv junk old st.trace (levelDir root i ++ chunkKey (g :: l))).ok = true →
      (bucketAfter P srv junk old st.trace (levelDir root i ++ chunkKey (g :: l))).object =
        fileAfter (levelDir root i ++ chunkKey (g :: l)) (runEventsV2 (perfect env) c (framesOfLevel cfg i calls.flatten).flatten
          (framesOfLevel cfg i calls.flatten).length) ∧
      ∃ b, (bucketAfter P srv junk old st.trace (levelDir root i ++ chunkKey (g :: l))).object = some b ∧
        fileAfter (levelDir root i ++ chunkKey (g :: l)) st.trace = some b := by
    intro i g l c hc hg hlb hok
    have hL := h.levelShape hz hd hc
    obtain ⟨d1, d2⟩ := h.levelDims.1 c (List.mem_of_getElem? hc)
    have hlb' : InBounds (nShape c.dims.tailDims) l := by
      rw [← zipWith_ceilDiv, hL.tail, hL.tailChunks]; exact hlb
    have hop : levelDir root i ++ chunkKey (g :: l) = chunkPath c g (ravel (nShape c.dims.tailDims) l) := by
      rw [← levelDir_located h hr.located hc, ← objectPath_key (h.versionV2 hV c (List.mem_of_getElem? hc))]
      unfold chunkPath
      rw [unravel_ravel hlb']
    have hcnt : ravel (nShape c.dims.tailDims) l < c.dims.chunkCount := ravel_lt hlb'
    have hown : Owned c (levelDir root i ++ chunkKey (g :: l)) := by rw [hop]; exact .inr ⟨_, _, rfl⟩
    have hfpc : c.dims.framesPerChunk = levelChunk a.isChannel a.arraySize a.chunkSize i * prod (sizesAt i inner) := by
      unfold ArrayDims.framesPerChunk
      rw [hL.append, hL.innerSizes]
    have hpos := ArrayDims.framesPerChunk_pos d1 d2
    rw [← hfpc] at hg
    have hgrp : g < groups c (framesOfLevel cfg i calls.flatten).length := by
      unfold groups
      rw [framesOfLevel_length]
      rcases Nat.lt_or_ge g (ceilDiv (calls.flatten.length / 2 ^ i) c.dims.framesPerChunk) with hlt | hge
      · exact hlt
      · exfalso
        rw [ge_iff_le, ceilDiv_least hpos] at hge
        have : (g + 1) * c.dims.framesPerChunk = g * c.dims.framesPerChunk + c.dims.framesPerChunk := Nat.succ_mul _ _
        omega
    have hev1 := reached_events_v2 h hE hV hn hf h0 h1 hc
    have ha1 : about (levelDir root i ++ chunkKey (g :: l)) st.trace = about (levelDir root i ++ chunkKey (g :: l))
        (eventsV2 (perfect env) c (framesOfLevel cfg i calls.flatten).flatten
          ((framesOfLevel cfg i calls.flatten).length / c.dims.framesPerChunk)) := by
      rw [← about_owned hown, hev1, about_owned hown]
    rw [hop] at ha1 hok ⊢
    rw [filter_events_chunk (perfect env) _ (by
      rw [framesOfLevel_length, Nat.lt_iff_add_one_le, Nat.le_div_iff_mul_le hpos]; exact hg) hcnt] at ha1
    have hbytes := h.levelAll (Q := fun D => D.chunkBytes + 16 ≤ P * (2 ^ 32 - 1))
      (fun D D' _ _ hq hd => by have := chunkBytes_down hd; omega) (by rw [← setup_chunkBytes h hd] at hsz; exact hsz) c
      (List.mem_of_getElem? hc)
    have hobj : (bucketAfter P srv junk old st.trace (chunkPath c g (ravel (nShape c.dims.tailDims) l))).object =
        some (chunkFinal (perfect env) c (framesOfLevel cfg i calls.flatten).flatten g (ravel (nShape c.dims.tailDims) l)) := by
      have hk := hok
      have hcf : (chunkFinal (perfect env) c (framesOfLevel cfg i calls.flatten).flatten g (ravel (nShape c.dims.tailDims) l)).length ≤
          c.dims.chunkBytes + 16 ∧
          chunkFinal (perfect env) c (framesOfLevel cfg i calls.flatten).flatten g (ravel (nShape c.dims.tailDims) l) ≠ [] := by
        unfold chunkFinal
        generalize hb : Spec.chunkBytes (aShape c.dims.tailDims) (cShape c.dims.toList) c.dims.dtype.bytes
          (framesOfLevel cfg i calls.flatten).flatten (g :: unravel (nShape c.dims.tailDims) (ravel (nShape c.dims.tailDims) l)) = b
        have hbl : b.length = c.dims.chunkBytes := by rw [← hb]; simp [Spec.chunkBytes, ArrayDims.chunkBytes]
        have hpos : b ≠ [] := by
          intro h0
          rw [h0] at hbl
          have := ArrayDims.chunkBytes_pos d1
          simp at hbl
          omega
        have hl := storedForm_length (env := perfect env) ho c b
        have hd := storedForm_ne (env := perfect env) hne hE h (List.mem_of_getElem? hc) hbl hpos
        exact ⟨by omega, hd⟩
      unfold bucketAfter at hk ⊢
      rw [objAfter_filter] at hk ⊢
      change (objAfter P _ junk _ _ (about _ st.trace)).ok = true at hk
      show (objAfter P _ junk _ _ (about _ st.trace)).object = _
      rw [ha1] at hk ⊢
      exact objAfter_one hP hj hcf.2 (by omega) hk
    refine ⟨?_, _, hobj, ?_⟩
    · rw [hobj, fileAfter_chunk_v2 (perfect env) d1 d2 _ hgrp hcnt]
      rfl
    · rw [fileAfter_filter]
      show fileAfter _ (about _ st.trace) = _
      rw [ha1]
      generalize chunkFinal _ _ _ _ _ = d
      simp only [fileAfter, List.foldl_cons, List.foldl_nil, stepFile, Ev.path, ne_eq, not_true, if_false,
        Option.map_some]
      by_cases hd : d.isEmpty
      · rw [if_pos hd]; simp at hd; rw [hd]
      · rw [if_neg hd, pwrite_zero_of_le (by simp)]
  refine ⟨fun i g l hi hg hlb hok => (key i g l _ (List.getElem?_eq_getElem hi) hg hlb hok).2, ?_⟩
  intro t i py px hi hpy hpx ht hok
  obtain ⟨rest, hrest⟩ := levelConfigs_head h.levels
  have h0c : cfgs[0]? = some cfg := by rw [hrest]; rfl
  have hpos : ∀ c ∈ (a :: (inner ++ [y, x])).map (·.chunkSize), 0 < c := by
    rw [← hD.chunks]
    intro c hc
    obtain ⟨d, hdm, rfl⟩ := List.mem_map.1 hc
    rcases List.mem_cons.1 hdm with rfl | hdm
    · exact h.dimsValid.append_chunk
    · exact h.dimsValid.tail_chunk d hdm
  have hc0 : 0 < a.chunkSize := hpos _ (by simp)
  have hsz0 : ∀ ds : List DimProps, sizesAt 0 ds = ds.map (·.arraySize) := by
    intro ds
    unfold sizesAt levelSize
    simp [ceilDiv_one]
  have hch0 : ∀ ds : List DimProps, chunksAt 0 ds = ds.map (·.chunkSize) := by
    intro ds
    unfold chunksAt levelChunk
    simp
  have hread := v2_read_from (env := perfect env) h hE hV hd (decode := decode) hdec (frames := calls.flatten)
    (fun f hfm => by
      obtain ⟨c, hcm, hfc⟩ := List.mem_flatten.1 hfm
      exact hf c hcm f hfc)
    (file := fun p => fileAfter p (runEventsV2 (perfect env) cfg calls.flatten.flatten calls.flatten.length))
    (levelDir_located h hr.located h0c) (fun g l => rfl) (t := t) hi hpy hpx
  have hlt : t * prod (inner.map (·.arraySize)) + ravel (inner.map (·.arraySize)) i < calls.flatten.length := by
    have h1 := ravel_lt hi
    have h2 : (t + 1) * prod (inner.map (·.arraySize)) ≤ (t / a.chunkSize + 1) * a.chunkSize * prod (inner.map (·.arraySize)) := by
      refine Nat.mul_le_mul_right _ ?_
      have := Nat.lt_div_mul_add (a := t) hc0
      rw [Nat.succ_mul]
      omega
    rw [← Nat.mul_assoc] at ht
    rw [Nat.succ_mul] at h2
    omega
  rw [List.getElem?_eq_getElem hlt] at hread ⊢
  refine Eq.trans (readV2_congr ?_) hread
  refine (key 0 _ _ cfg h0c ?_ ?_ hok).1
  · rw [hsz0]
    simpa [levelChunk] using ht
  · rw [hsz0, hch0]
    refine gridOf_inBounds (fun c hc => hpos c (List.mem_cons_of_mem _ hc)) (by simp) ?_
    rw [List.map_append]
    exact (inBounds_append _ _ hi.length).2 ⟨hi, hpy, hpx, trivial⟩

end

/-- Storage that refuses the chunk `[9, 9]`; two frames per chunk; the frames 5, 6, 7 have been appended, and an empty call has
succeeded. Whatever the server answers about other objects, if it confirms the requests for the first chunk, frame 1 reads back. -/
example : ∃ st r, Reached Sample.world (Sample.flaky [9, 9] .failed) 9 (Sample.slabS3 2 2 1) [[5, 6], [7]] st ∧
    append (Sample.flaky [9, 9] .failed) 1 [] st = some (.ok r) ∧
    ∀ (srv : Text → Nat → Reply) (junk : Bytes), junk.length = 5 * 2 ^ 20 → Spec.Healthy (srv "a/0/0/0/0".toList) →
      readV2 (fun p => (bucketAfter (5 * 2 ^ 20) srv junk (fun _ => none) st.trace p).object) "a/0/".toList some [2, 1, 1] 1 [1, 0, 0] =
        some [6] := by
  have h : (match createStream Sample.world (Sample.flaky [9, 9] .failed) 9 (some (Sample.slabS3 2 2 1)) with
    | some (.ok st0) =>
      match appends (Sample.flaky [9, 9] .failed) [[5, 6], [7]] st0 with
      | .ok (st, _) =>
        match append (Sample.flaky [9, 9] .failed) 1 [] st with
        | some (.ok _) => decide (about "a/0/0/0/0".toList st.trace =
            [.opened "a/0/0/0/0".toList, .wrote "a/0/0/0/0".toList 0 [5, 6], .finalized "a/0/0/0/0".toList])
        | _ => false
      | _ => false
    | _ => false) = true := by decide +kernel
  split at h
  · next st0 h0 =>
    split at h
    · next st ns h1 =>
      split at h
      · next r h2 =>
        have ha := of_decide_eq_true h
        refine ⟨st, r, ⟨st0, ns, h0, h1⟩, h2, ?_⟩
        intro srv junk hj hs
        have hmain := (s3_success_uploaded_partial (calls := [[[5], [6]], [[7]]]) (decode := some) (srv := srv) (junk := junk)
          (old := fun _ => none) Sample.slabS3Setup2 (by unfold SizesInRange; decide) (Sample.slabS3Bucket 2 2 1) (env := Sample.flaky [9, 9] .failed)
          (by intro p off data; unfold Sample.flaky; dsimp only; split <;> simp)
          ⟨fun _ => rfl, fun _ => rfl, fun _ _ _ => rfl, fun _ => rfl, nofun⟩ Sample.nonempty Sample.overhead rfl (inner := []) rfl
          (fun _ => rfl) (by decide) (by
            intro c hc f hf
            rcases List.mem_cons.1 hc with rfl | hc
            · rcases List.mem_cons.1 hf with rfl | hf
              · rfl
              · rw [List.mem_singleton.1 hf]; rfl
            · rw [List.mem_singleton.1 hc] at hf
              rw [List.mem_singleton.1 hf]; rfl) ⟨st0, ns, h0, h1⟩ h2 (P := 5 * 2 ^ 20) (by decide) (by decide) hj).2
          1 [] 0 0 trivial (by decide) (by decide) (by decide)
        refine hmain ?_
        show (objAfter (5 * 2 ^ 20) (srv "a/0/0/0/0".toList) junk none "a/0/0/0/0".toList st.trace).ok = true
        rw [objAfter_filter]
        change (objAfter _ _ _ _ _ (about _ st.trace)).ok = true
        rw [ha]
        generalize "a/0/0/0/0".toList = p at hs
        have := objAfter_blocks (old := none) (p := p) (by decide) hs hj (ds := [[5, 6]]) (by decide) (by decide)
        exact congrArg Obj.ok this
      · cases h
    · cases h
  · cases h

end AZ
