import Verif.Lemmas.ClosedStream
import Verif.Props.Crash
import Verif.Props.Failures
import Verif.Spec.Place

set_option linter.unusedSimpArgs false

/-! # C65, C66: append calls that fail

C65: whatever fails in whichever call, an object that was finished is never touched again; the frames of completed
chunk groups stay what they were. C66: what a failed call does to frames accepted before it and after it. -/

namespace AZ
open Spec Exc

theorem closed_of_about {tr tr' : List Ev} (h : ClosedForGood tr) (ha : ∀ p, about p tr' = about p tr) : ClosedForGood tr' := by
  rw [closed_iff] at h ⊢
  refine List.pairwise_iff_forall_sublist.2 ?_
  intro x y hxy p hp hy
  subst hp
  have h1 : [Ev.finalized p, y].Sublist (about p tr') := by
    have := hxy.filter (fun e => decide (e.path = p))
    unfold about
    rw [List.filter_cons_of_pos (by simp [Ev.path]), List.filter_cons_of_pos (by simpa using hy), List.filter_nil] at this
    exact this
  rw [ha] at h1
  exact List.pairwise_iff_forall_sublist.1 h (h1.trans List.filter_sublist) p rfl hy

/-- A file whose last event so far closed it has its final content. -/
theorem closed_content {pre tr : List Ev} (h : ClosedForGood tr) (hp : pre <+: tr) {p : Text} (hf : Ev.finalized p ∈ pre)
    (b : Option Bytes) : tr.foldl (stepFile p) b = pre.foldl (stepFile p) b ∧ about p tr = about p pre ∧ disk p tr = disk p pre := by
  obtain ⟨post, rfl⟩ := hp
  obtain ⟨u, v, rfl⟩ := List.append_of_mem hf
  have hno : ∀ e ∈ post, e.path ≠ p := fun e he =>
    h u p (v ++ post) (by simp) e (List.mem_append.2 (.inr he))
  have ha : about p (u ++ Ev.finalized p :: v ++ post) = about p (u ++ Ev.finalized p :: v) := by
    unfold about
    rw [List.filter_append]
    have : post.filter (fun e => decide (e.path = p)) = [] := List.filter_eq_nil_iff.2 fun e he => by simpa using hno e he
    rw [this, List.append_nil]
  refine ⟨?_, ha, ?_⟩
  · rw [List.foldl_append, stepFile_none hno]
  · rw [disk_about, ha, ← disk_about]

section
variable {w : World} {env0 env : Env} {fuel : Nat} {S : Settings} {s0 : SState} {st : XStream} {rs : List Status}

/-- **C65, objects.** Any stream, any sequence of append calls, each meeting storage that behaves in its own way (sinks that
cannot be created, writes and closings that fail, compression that fails), calls going on after errors; then possibly a
destroy call, successful or not. No event after the closing of an object concerns that object, in any schedule of the
worker threads. `maxFrames` keeps the number of frames below 2^32. -/
theorem closed_for_good (h : createStream w env0 fuel (some S) = some (.ok s0)) {calls : List (Env × Bytes)}
    (hb : maxFrames s0.buf.length (calls.map (·.2)) + 1 < 2 ^ 32) (hc : callsX calls (XStream.of s0) = some (st, rs)) :
    (∀ tr, (∀ p, about p tr = about p st.trace) → ClosedForGood tr) ∧
    ∀ tr ok, destroyX env st = some (tr, ok) → st.trace <+: tr ∧ ∀ tr', (∀ p, about p tr' = about p tr) → ClosedForGood tr' := by
  obtain ⟨k1, k2⟩ := created_okay h
  have hbuf : (XStream.of s0).buf.length = s0.buf.length := rfl
  obtain ⟨m1, m2⟩ := okay_calls k1 (by rw [hbuf]; omega) hc
  refine ⟨fun tr ht => closed_of_about (closed_iff.2 m1.inv.closed) ht, ?_⟩
  intro tr ok hd
  rw [hbuf] at m1
  obtain ⟨n1, n2, _⟩ := closed_destroy m1 (by omega) (by
    intro lv hlv
    have : lv.cfg ∈ (XStream.of s0).levels.map (·.cfg) := by
      rw [← m2.cfgs]; exact List.mem_map_of_mem hlv
    obtain ⟨l0, hl0, he⟩ := List.mem_map.1 this
    rw [m2.cfg, ← he]
    exact k2 l0 hl0) hd
  exact ⟨n1, fun tr' ht => closed_of_about (closed_iff.2 n2) ht⟩

/-- The histories that can follow the state `st1`: more append calls (with whatever storage and statuses), and possibly a
destroy call. -/
inductive Follows (more : List (Env × Bytes)) (st1 : XStream) : List Ev → Prop where
  | appended {st2 rs} : callsX more st1 = some (st2, rs) → Follows more st1 st2.trace
  | destroyed {st2 rs env tr ok} : callsX more st1 = some (st2, rs) → destroyX env st2 = some (tr, ok) → Follows more st1 tr

/-- **C65, contents.** An object finished by the calls so far keeps its content, whatever happens in later calls and in
destroy. -/
theorem finished_objects_survive (h : createStream w env0 fuel (some S) = some (.ok s0)) {calls more : List (Env × Bytes)}
    (hb : maxFrames s0.buf.length ((calls ++ more).map (·.2)) + 1 < 2 ^ 32) (hc : callsX calls (XStream.of s0) = some (st, rs))
    {tr : List Ev} (hm : Follows more st tr) {p : Text} (hp : Ev.finalized p ∈ st.trace) (cfg : WConfig) :
    fileInStore w cfg p tr = fileInStore w cfg p st.trace ∧ about p tr = about p st.trace := by
  obtain ⟨k1, k2⟩ := created_okay h
  have hbuf : (XStream.of s0).buf.length = s0.buf.length := rfl
  have hsplit : maxFrames s0.buf.length ((calls ++ more).map (·.2)) = maxFrames s0.buf.length (calls.map (·.2)) +
      maxFrames s0.buf.length (more.map (·.2)) := by simp [maxFrames]
  obtain ⟨m1, m2⟩ := okay_calls k1 (by rw [hbuf]; omega) hc
  have hbuf2 : st.buf.length = s0.buf.length := m2.buf
  rw [hbuf] at m1
  have key : ClosedForGood tr ∧ st.trace <+: tr := by
    cases hm with
    | appended h2 =>
      obtain ⟨n1, n2⟩ := okay_calls m1 (by rw [hbuf2]; omega) h2
      exact ⟨closed_iff.2 n1.inv.closed, n2.trace⟩
    | destroyed h2 h3 =>
      obtain ⟨n1, n2⟩ := okay_calls m1 (by rw [hbuf2]; omega) h2
      obtain ⟨q1, q2⟩ := (closed_for_good (env := _) h hb (callsX_append hc h2)).2 _ _ h3
      exact ⟨q2 tr fun _ => rfl, n2.trace.trans q1⟩
  obtain ⟨a1, a2, _⟩ := closed_content key.1 key.2 hp (if (cfg.storePath ++ ['/']).isPrefixOf p then none else w.files p)
  exact ⟨a1, a2⟩

end

section
variable {w : World} {env : Env} {fuel : Nat} {s : Settings} {cfg : WConfig} {cfgs : List WConfig} {a y x : DimProps}
  {inner : List DimProps} {root : Text} {calls1 : List (List Bytes)} {st st0 st1 : SState} {ns ns1 : List Nat} {tr0 tr : List Ev}
  {more : List (Env × Bytes)}

theorem v2_chunk_finalized (h : Setup w fuel s cfg cfgs) (hz : SizesInRange s) (hE : StorageOk env s)
    (hV : s.version = 2) (hd : s.dimensions = some (a :: (inner ++ [y, x]))) (hl : StoredAt s root)
    (hn : calls1.flatten.length < 2 ^ 32)
    (hf : ∀ c ∈ calls1, ∀ f ∈ c, f.length = y.arraySize * x.arraySize * itemSize s.dataType)
    (h0 : createStream w env fuel (some s) = some (.ok st0)) (h1 : appends env (calls1.map List.flatten) st0 = .ok (st1, ns1))
    {i g : Nat} {l : List Nat} (hi : i < cfgs.length)
    (hg : (g + 1) * (levelChunk a.isChannel a.arraySize a.chunkSize i * prod (sizesAt i inner)) ≤ calls1.flatten.length / 2 ^ i)
    (hlb : InBounds (List.zipWith ceilDiv (sizesAt i (inner ++ [y, x])) (chunksAt i (inner ++ [y, x]))) l) :
    Ev.finalized (levelDir root i ++ chunkKey (g :: l)) ∈ st1.trace := by
  have hD := dimsOf h.valid h.commit hd
  rw [← hD.frame] at hf
  have hc : cfgs[i]? = some cfgs[i] := List.getElem?_eq_getElem hi
  generalize cfgs[i] = c at hc
  have hL := h.levelShape hz hd hc
  obtain ⟨d1, d2⟩ := h.levelDims.1 c (List.mem_of_getElem? hc)
  have hlb' : InBounds (nShape c.dims.tailDims) l := by
    rw [← zipWith_ceilDiv, hL.tail, hL.tailChunks]; exact hlb
  have hop : levelDir root i ++ chunkKey (g :: l) = chunkPath c g (ravel (nShape c.dims.tailDims) l) := by
    rw [← levelDir_eq h hl hc, ← objectPath_key (h.versionV2 hV c (List.mem_of_getElem? hc))]
    unfold chunkPath
    rw [unravel_ravel hlb']
  have hcnt : ravel (nShape c.dims.tailDims) l < c.dims.chunkCount := ravel_lt hlb'
  have hown : Owned c (levelDir root i ++ chunkKey (g :: l)) := by rw [hop]; exact .inr ⟨_, _, rfl⟩
  have hfpc : c.dims.framesPerChunk = levelChunk a.isChannel a.arraySize a.chunkSize i * prod (sizesAt i inner) := by
    unfold ArrayDims.framesPerChunk
    rw [hL.append, hL.innerSizes]
  have hpos := ArrayDims.framesPerChunk_pos d1 d2
  rw [← hfpc] at hg
  have hev1 := reached_events_v2 h hE hV hn hf h0 h1 hc
  have ha1 : about (levelDir root i ++ chunkKey (g :: l)) st1.trace = about (levelDir root i ++ chunkKey (g :: l))
      (eventsV2 env c (framesOfLevel cfg i calls1.flatten).flatten
        ((framesOfLevel cfg i calls1.flatten).length / c.dims.framesPerChunk)) := by
    rw [← about_owned hown, hev1, about_owned hown]
  rw [hop] at ha1 ⊢
  rw [filter_events_chunk env _ (by
    rw [framesOfLevel_length, Nat.lt_iff_add_one_le, Nat.le_div_iff_mul_le hpos]; exact hg) hcnt] at ha1
  have : Ev.finalized (chunkPath c g (ravel (nShape c.dims.tailDims) l)) ∈
      about (chunkPath c g (ravel (nShape c.dims.tailDims) l)) st1.trace := by rw [ha1]; simp
  exact (List.mem_filter.1 this).1

theorem v3_shard_finalized (h : Setup w fuel s cfg cfgs) (hF3 : cfg.dims.FitsV3) (hz : SizesInRange s) (hE : StorageOk env s)
    (ho : SmallOverhead env) (hV : s.version = 3) (hd : s.dimensions = some (a :: (inner ++ [y, x]))) (hl : StoredAt s root)
    (hn : calls1.flatten.length < 2 ^ 32)
    (hf : ∀ c ∈ calls1, ∀ f ∈ c, f.length = y.arraySize * x.arraySize * itemSize s.dataType)
    (h0 : createStream w env fuel (some s) = some (.ok st0)) (h1 : appends env (calls1.map List.flatten) st0 = .ok (st1, ns1))
    {i g : Nat} {l : List Nat} (hi : i < cfgs.length)
    (hg : (g + 1) * (levelChunk a.isChannel a.arraySize a.chunkSize i * prod (sizesAt i inner) *
        levelShard a.isChannel a.arraySize a.chunkSize a.shardSize i) ≤ calls1.flatten.length / 2 ^ i)
    (hlb : InBounds (shardGridAt i (inner ++ [y, x])) l) :
    Ev.finalized (levelDirV3 root i ++ chunkKey (g :: l)) ∈ st1.trace := by
  have hD := dimsOf h.valid h.commit hd
  rw [← hD.frame] at hf
  have hc : cfgs[i]? = some cfgs[i] := List.getElem?_eq_getElem hi
  generalize cfgs[i] = c at hc
  have hL := h.levelShape hz hd hc
  obtain ⟨d1, d2⟩ := h.levelDims.1 c (List.mem_of_getElem? hc)
  have d3 := h.levelFitsV3 hF3 c (List.mem_of_getElem? hc)
  have hk : 0 < c.dims.append.shardSize := d3.pos c.dims.append (by simp [ArrayDims.toList])
  have hpos := ArrayDims.framesPerChunk_pos d1 d2
  obtain ⟨hop, hcnt⟩ := shard_name h hz hV hd hl hc (G := g) hlb
  have hown : Owned c (levelDirV3 root i ++ chunkKey (g :: l)) := by rw [hop]; exact .inr ⟨_, _, rfl⟩
  have hfpc : c.dims.framesPerChunk = levelChunk a.isChannel a.arraySize a.chunkSize i * prod (sizesAt i inner) := by
    unfold ArrayDims.framesPerChunk
    rw [hL.append, hL.innerSizes]
  have hg1 : (g + 1) * c.dims.append.shardSize ≤ calls1.flatten.length / 2 ^ i / c.dims.framesPerChunk := by
    rw [Nat.le_div_iff_mul_le hpos, hfpc, hL.shardSplit.1]
    refine Nat.le_trans (Nat.le_of_eq ?_) hg
    ac_rfl
  have e := reached_events_v3 h hF3 hE ho hV hn hf h0 h1 hc hown.all
  have hm : Ev.finalized (levelDirV3 root i ++ chunkKey (g :: l)) ∈ eventsV3 env c (framesOfLevel cfg i calls1.flatten).flatten
      ((framesOfLevel cfg i calls1.flatten).length / c.dims.framesPerChunk) := by
    rw [hop, mem_range_flush_finalized hk hcnt, framesOfLevel_length]
    exact hg1
  have hm2 : Ev.finalized (levelDirV3 root i ++ chunkKey (g :: l)) ∈ within
      (fun q => decide (q = levelDirV3 root i ++ chunkKey (g :: l))) st1.trace := by
    rw [e]
    exact List.mem_filter.2 ⟨hm, by simp [Ev.path]⟩
  exact (List.mem_filter.1 hm2).1

theorem map_env_snd (calls : List Bytes) : (calls.map fun d => (env, d)).map (·.2) = calls := by
  rw [List.map_map]; exact List.map_id _

/-- **C65, version 2.** The calls `calls1` met working storage and delivered whole frames; then anything happens: further
append calls with any data and any storage failures, and possibly a destroy call. The chunk files of every chunk group
that `calls1` completed have the content they would have if the stream had been closed properly right after `calls1`
(that is, the frames: `v2_pixels_read_back`). -/
theorem v2_failed_calls_keep (h : Setup w fuel s cfg cfgs) (hz : SizesInRange s) (hE : StorageOk env s)
    (hV : s.version = 2) (hd : s.dimensions = some (a :: (inner ++ [y, x]))) (hl : StoredAt s root)
    (hfr : Fresh w s root) (hn : calls1.flatten.length < 2 ^ 32)
    (hf : ∀ c ∈ calls1, ∀ f ∈ c, f.length = y.arraySize * x.arraySize * itemSize s.dataType)
    (h0 : createStream w env fuel (some s) = some (.ok st0)) (h1 : appends env (calls1.map List.flatten) st0 = .ok (st1, ns1))
    (hrun : runStream w env fuel s (calls1.map List.flatten) = some (.ok (st, ns, tr0)))
    (hb : maxFrames st0.buf.length (calls1.map List.flatten ++ more.map (·.2)) + 1 < 2 ^ 32)
    (hm : Follows more (XStream.of st1) tr)
    {i g : Nat} {l : List Nat} (hi : i < cfgs.length)
    (hg : (g + 1) * (levelChunk a.isChannel a.arraySize a.chunkSize i * prod (sizesAt i inner)) ≤ calls1.flatten.length / 2 ^ i)
    (hlb : InBounds (List.zipWith ceilDiv (sizesAt i (inner ++ [y, x])) (chunksAt i (inner ++ [y, x]))) l) :
    ∃ final, fileInStore w cfg (levelDir root i ++ chunkKey (g :: l)) tr0 = some final ∧
      fileInStore w cfg (levelDir root i ++ chunkKey (g :: l)) tr = some final := by
  obtain ⟨hp, k⟩ := v2_completed_chunks (calls1 := calls1) (calls2 := []) h hz hE hV hd hl hfr (by simpa using hn)
    (by simpa using hf) h0 h1 (by simpa using hrun)
  obtain ⟨k1, final, k2, _⟩ := k i g l hi hg hlb
  have hfin := v2_chunk_finalized h hz hE hV hd hl hn hf h0 h1 hi hg hlb
  have hs := finished_objects_survive h0 (calls := (calls1.map List.flatten).map fun d => (env, d)) (more := more)
    (by rw [List.map_append, map_env_snd]; exact hb) (calls_of_appends h1) hm hfin cfg
  refine ⟨final, k2, ?_⟩
  rw [hs.1, ← k2]
  obtain ⟨r, rfl⟩ := hp
  rw [List.drop_left] at k1
  unfold fileInStore
  dsimp only
  rw [List.foldl_append, stepFile_none k1]
  rfl

/-- **C65, version 3.** As `v2_failed_calls_keep` for the append-shards that `calls1` completed. -/
theorem v3_failed_calls_keep (h : Setup w fuel s cfg cfgs) (hF3 : cfg.dims.FitsV3) (hz : SizesInRange s) (hE : StorageOk env s)
    (ho : SmallOverhead env) (hV : s.version = 3) (hd : s.dimensions = some (a :: (inner ++ [y, x]))) (hl : StoredAt s root)
    (hfr : Fresh w s root) (hn : calls1.flatten.length < 2 ^ 32)
    (hf : ∀ c ∈ calls1, ∀ f ∈ c, f.length = y.arraySize * x.arraySize * itemSize s.dataType)
    (h0 : createStream w env fuel (some s) = some (.ok st0)) (h1 : appends env (calls1.map List.flatten) st0 = .ok (st1, ns1))
    (hrun : runStream w env fuel s (calls1.map List.flatten) = some (.ok (st, ns, tr0)))
    (hb : maxFrames st0.buf.length (calls1.map List.flatten ++ more.map (·.2)) + 1 < 2 ^ 32)
    (hm : Follows more (XStream.of st1) tr)
    {i g : Nat} {l : List Nat} (hi : i < cfgs.length)
    (hg : (g + 1) * (levelChunk a.isChannel a.arraySize a.chunkSize i * prod (sizesAt i inner) *
        levelShard a.isChannel a.arraySize a.chunkSize a.shardSize i) ≤ calls1.flatten.length / 2 ^ i)
    (hlb : InBounds (shardGridAt i (inner ++ [y, x])) l) :
    ∃ final, fileInStore w cfg (levelDirV3 root i ++ chunkKey (g :: l)) tr0 = some final ∧
      fileInStore w cfg (levelDirV3 root i ++ chunkKey (g :: l)) tr = some final := by
  obtain ⟨hp, k⟩ := v3_completed_shards_partial (calls1 := calls1) (calls2 := []) h hF3 hz hE ho hV hd hl hfr (by simpa using hn)
    (by simpa using hf) h0 h1 (by simpa using hrun)
  obtain ⟨k1, final, k2, _⟩ := k i g l hi hg hlb
  have hfin := v3_shard_finalized h hF3 hz hE ho hV hd hl hn hf h0 h1 hi hg hlb
  have hs := finished_objects_survive h0 (calls := (calls1.map List.flatten).map fun d => (env, d)) (more := more)
    (by rw [List.map_append, map_env_snd]; exact hb) (calls_of_appends h1) hm hfin cfg
  refine ⟨final, k2, ?_⟩
  rw [hs.1, ← k2]
  obtain ⟨r, rfl⟩ := hp
  rw [List.drop_left] at k1
  unfold fileInStore
  dsimp only
  rw [List.foldl_append, stepFile_none k1]
  rfl

end

/-! ### C66 -/

section
variable {w : World} {env : Env} {fuel : Nat} {S : Settings} {s0 : SState}

/-- **C66, what holds.** Without a failure the calls do what the model of C01 to C16 says; and once a job has reported an
error, every later append call returns an error status and changes nothing. What the files of such sessions hold:
`failed_writes_partial`. Missing: after the other failures (a directory, a sink that cannot be closed, an array document) appending goes on, and then the
claim is violated (`frame_replaced_violated`, `twice_compressed_violated`). -/
theorem failed_append_partial :
    (∀ {calls : List Bytes} {s' : SState} {ns : List Nat}, appends env calls s0 = .ok (s', ns) →
      callsX (calls.map fun d => (env, d)) (XStream.of s0) = some (XStream.of s', ns.map some)) ∧
    (∀ (st : XStream) (calls : List (Env × Bytes)), st.error ≠ [] → callsX calls st = some (st, calls.map fun _ => none)) := by
  refine ⟨fun h => calls_of_appends h, ?_⟩
  intro st calls he
  induction calls with
  | nil => rfl
  | cons c cs ih =>
    obtain ⟨e, d⟩ := c
    unfold callsX appendX
    have : (!st.error.isEmpty) = true := by
      cases hh : st.error with
      | nil => exact absurd hh he
      | cons _ _ => rfl
    rw [if_pos this]
    dsimp only
    rw [ih]
    rfl

end

namespace Sample

/-- Storage that cannot create directories at the moment. -/
def noDirs : Env := { Sample.env with makeSinks := fun _ => false }

/-- One-pixel frames, two per chunk; Blosc compression. -/
def pressed : Settings := { Sample.strip 2 1 2 with compression := some ⟨1, 1, 1, 1⟩ }

/-- A session: append calls and destroy, with the storage each of them meets; the statuses, whether destroy succeeded, and the
history. -/
def sessionX (S : Settings) (calls : List (Env × Bytes)) (last : Env) : Option (List Status × Bool × List Ev) :=
  match createStream Sample.world Sample.env 9 (some S) with
  | some (.ok s0) =>
    match callsX calls (XStream.of s0) with
    | some (st, rs) => (destroyX last st).map fun (tr, ok) => (rs, ok, tr)
    | none => none
  | _ => none

theorem sessionX_spec {S : Settings} {calls : List (Env × Bytes)} {last : Env} {P : List Status × Bool × List Ev → Bool}
    (h : (sessionX S calls last).any P = true) :
    ∃ s0 st rs tr ok, createStream Sample.world Sample.env 9 (some S) = some (.ok s0) ∧
      callsX calls (XStream.of s0) = some (st, rs) ∧ destroyX last st = some (tr, ok) ∧ P (rs, ok, tr) = true := by
  unfold sessionX at h
  split at h
  · rename_i s0 h0
    split at h
    · rename_i st rs h1
      cases h2 : destroyX last st with
      | none => rw [h2] at h; simp at h
      | some z =>
        obtain ⟨tr, ok⟩ := z
        rw [h2] at h
        exact ⟨s0, st, rs, tr, ok, h0, h1, h2, by simpa using h⟩
    · simp at h
  · simp at h

end Sample

/-- **C66 (violated).** Two frames per chunk. Frames 5, 6 and 7 are accepted; while frame 8 is appended a directory cannot be
created and the call reports an error; 9 and 10 are accepted, destroy succeeds. Frame 7, acquired third, belongs to the first
half of chunk 1 (`Spec.place`); that place holds frame 9, the only chunk files are 0 and 1, so frame 7 is nowhere; the array
document announces six frames. -/
theorem frame_replaced_violated : place [1, 1] [2, 1, 1] 1 2 = (1, 0, 0) ∧
    ∃ s0 st rs tr ok, createStream Sample.world Sample.env 9 (some (Sample.strip 2 1 2)) = some (.ok s0) ∧
      callsX [(Sample.env, [5]), (Sample.env, [6]), (Sample.env, [7]), (Sample.noDirs, [8]), (Sample.env, [9]), (Sample.env, [10])]
        (XStream.of s0) = some (st, rs) ∧ destroyX Sample.env st = some (tr, ok) ∧
      rs = [some 1, some 1, some 1, none, some 1, some 1] ∧ ok = true ∧
      fileAfter "/tmp/a/0/0/0/0".toList tr = some [5, 6] ∧ fileAfter "/tmp/a/0/1/0/0".toList tr = some [9, 10] ∧
      fileAfter "/tmp/a/0/2/0/0".toList tr = none ∧
      ∀ p off d, Ev.wrote p off d ∈ tr → (7 : UInt8) ∉ d := by
  refine ⟨by decide, ?_⟩
  obtain ⟨s0, st, rs, tr, ok, h0, h1, h2, h3⟩ := Sample.sessionX_spec (S := Sample.strip 2 1 2)
    (calls := [(Sample.env, [5]), (Sample.env, [6]), (Sample.env, [7]), (Sample.noDirs, [8]), (Sample.env, [9]), (Sample.env, [10])])
    (last := Sample.env)
    (P := fun (rs, ok, tr) => decide (rs = [some 1, some 1, some 1, none, some 1, some 1]) && ok &&
      decide (fileAfter "/tmp/a/0/0/0/0".toList tr = some [5, 6]) && decide (fileAfter "/tmp/a/0/1/0/0".toList tr = some [9, 10]) &&
      decide (fileAfter "/tmp/a/0/2/0/0".toList tr = none) &&
      tr.all fun e => match e with
        | .wrote _ _ d => !d.contains 7
        | _ => true) (by decide +kernel)
  simp only [Bool.and_eq_true, decide_eq_true_eq, List.all_eq_true] at h3
  obtain ⟨⟨⟨⟨⟨q1, q2⟩, q3⟩, q4⟩, q5⟩, q6⟩ := h3
  refine ⟨s0, st, rs, tr, ok, h0, h1, h2, q1, q2, q3, q4, q5, ?_⟩
  intro p off d hm
  have := q6 _ hm
  simpa using this

/-- **C66 (violated), compression.** The same failure with compression on, and destroy as the next call. It succeeds; the chunk
file holds the compressed form of the compressed frames: a reader gets a compressed buffer instead of frames 7 and 8. -/
theorem twice_compressed_violated : ∃ s0 st rs tr ok z z2,
    createStream Sample.world Sample.env 9 (some Sample.pressed) = some (.ok s0) ∧
      callsX [(Sample.env, [5]), (Sample.env, [6]), (Sample.env, [7]), (Sample.noDirs, [8])] (XStream.of s0) = some (st, rs) ∧
      destroyX Sample.env st = some (tr, ok) ∧ rs = [some 1, some 1, some 1, none] ∧ ok = true ∧
      Sample.env.compress ⟨"lz4".toList, 1, 1⟩ 1 [7, 8] = some z ∧ Sample.env.compress ⟨"lz4".toList, 1, 1⟩ 1 z = some z2 ∧
      fileAfter "/tmp/a/0/1/0/0".toList tr = some z2 ∧ z2 ≠ z := by
  obtain ⟨s0, st, rs, tr, ok, h0, h1, h2, h3⟩ := Sample.sessionX_spec (S := Sample.pressed)
    (calls := [(Sample.env, [5]), (Sample.env, [6]), (Sample.env, [7]), (Sample.noDirs, [8])]) (last := Sample.env)
    (P := fun (rs, ok, tr) => decide (rs = [some 1, some 1, some 1, none]) && ok &&
      decide (fileAfter "/tmp/a/0/1/0/0".toList tr = some [7, 7, 7, 8])) (by decide +kernel)
  simp only [Bool.and_eq_true, decide_eq_true_eq] at h3
  obtain ⟨⟨q1, q2⟩, q3⟩ := h3
  exact ⟨s0, st, rs, tr, ok, [7, 7, 8], [7, 7, 7, 8], h0, h1, h2, q1, q2, rfl, rfl, q3, by decide⟩

/-! ### Non-vacuity -/

/-- The session of `frame_replaced_violated` meets the hypotheses of `closed_for_good` and `finished_objects_survive`, and chunk 0
was finished before the failure. -/
example : ∃ s0 st rs, createStream Sample.world Sample.env 9 (some (Sample.strip 2 1 2)) = some (.ok s0) ∧
    callsX [(Sample.env, [5]), (Sample.env, [6]), (Sample.env, [7])] (XStream.of s0) = some (st, rs) ∧
    maxFrames s0.buf.length [[5], [6], [7], [8], [9], [10]] + 1 < 2 ^ 32 ∧ Ev.finalized "/tmp/a/0/0/0/0".toList ∈ st.trace ∧
    ∃ tr, Follows [(Sample.noDirs, [8]), (Sample.env, [9]), (Sample.env, [10])] st tr := by
  have h : (match createStream Sample.world Sample.env 9 (some (Sample.strip 2 1 2)) with
    | some (.ok s0) =>
      decide (maxFrames s0.buf.length [[5], [6], [7], [8], [9], [10]] + 1 < 2 ^ 32) &&
      match callsX [(Sample.env, [5]), (Sample.env, [6]), (Sample.env, [7])] (XStream.of s0) with
      | some (st, _) => st.trace.contains (Ev.finalized "/tmp/a/0/0/0/0".toList) &&
          (callsX [(Sample.noDirs, [8]), (Sample.env, [9]), (Sample.env, [10])] st).isSome
      | none => false
    | _ => false) = true := by decide +kernel
  split at h
  · rename_i s0 h0
    simp only [Bool.and_eq_true, decide_eq_true_eq] at h
    obtain ⟨hm, h⟩ := h
    split at h
    · rename_i st rs h1
      simp only [Bool.and_eq_true, List.contains_iff_mem] at h
      obtain ⟨hf, hs⟩ := h
      obtain ⟨⟨st2, rs2⟩, h2⟩ := Option.isSome_iff_exists.1 hs
      exact ⟨s0, st, rs, h0, h1, hm, hf, _, .appended h2⟩
    · simp at h
  · simp at h

/-- Whether the calls `calls1` succeed and the calls `more` can follow them. -/
def Sample.goesOn (s : Settings) (calls1 : List Bytes) (more : List (Env × Bytes)) : Bool :=
  match createStream Sample.world Sample.env 9 (some s) with
  | some (.ok st0) =>
    decide (maxFrames st0.buf.length (calls1 ++ more.map (·.2)) + 1 < 2 ^ 32) &&
    match appends Sample.env calls1 st0 with
    | .ok (st1, _) => (match destroyStream Sample.env st1 with
        | .ok _ => true
        | _ => false) && match callsX more (XStream.of st1) with
        | some (_, rs) => rs.contains none
        | none => false
    | _ => false
  | _ => false

theorem Sample.goesOn_spec {s : Settings} {calls1 : List Bytes} {more : List (Env × Bytes)}
    (h : Sample.goesOn s calls1 more = true) : ∃ st0 st1 ns1 st2 rs tr0,
      createStream Sample.world Sample.env 9 (some s) = some (.ok st0) ∧ appends Sample.env calls1 st0 = .ok (st1, ns1) ∧
      runStream Sample.world Sample.env 9 s calls1 = some (.ok (st1, ns1, tr0)) ∧
      maxFrames st0.buf.length (calls1 ++ more.map (·.2)) + 1 < 2 ^ 32 ∧
      callsX more (XStream.of st1) = some (st2, rs) ∧ none ∈ rs := by
  unfold Sample.goesOn at h
  split at h
  · rename_i st0 h0
    simp only [Bool.and_eq_true, decide_eq_true_eq] at h
    obtain ⟨hm, h⟩ := h
    split at h
    · rename_i st1 ns1 h1
      rw [Bool.and_eq_true] at h
      obtain ⟨hd, h⟩ := h
      split at hd
      · rename_i tr0 hd0
        split at h
        · rename_i st2 rs h2
          refine ⟨st0, st1, ns1, st2, rs, tr0, h0, h1, ?_, hm, h2, List.contains_iff_mem.1 h⟩
          unfold runStream
          simp only [h0, h1]
          exact congrArg some (Res.bind_eq_ok.2 ⟨_, rfl, Res.bind_eq_ok.2 ⟨_, hd0, rfl⟩⟩)
        · simp at h
      · simp at hd
    · simp at h
  · simp at h

/-- Two frames complete a chunk group of a version 2 store; then a call cannot create the directory of the next group, and a
further one goes through: `v2_failed_calls_keep` applies to the first group. -/
example : ∃ tr final, (∃ st1 st2 rs, callsX [(Sample.env, [7]), (Sample.noDirs, [8]), (Sample.env, [9])] st1 = some (st2, rs) ∧
      none ∈ rs ∧ tr = st2.trace) ∧
    fileInStore Sample.world { Sample.slabCfg 2 1 with version := .v2 } "/tmp/a/0/0/0/0".toList tr = some final := by
  obtain ⟨st0, st1, ns1, st2, rs, tr0, h0, h1, h2, h3, h4, h5⟩ := Sample.goesOn_spec (s := Sample.strip 2 1 2)
    (calls1 := [[5, 6]]) (more := [(Sample.env, [7]), (Sample.noDirs, [8]), (Sample.env, [9])]) (by decide +kernel)
  have hS : Setup Sample.world 9 (Sample.strip 2 1 2) { Sample.slabCfg 2 1 with version := .v2 }
      [{ Sample.slabCfg 2 1 with version := .v2 }] := ⟨rfl, rfl, rfl, rfl, by decide, fun h => by cases h⟩
  obtain ⟨final, _, f2⟩ := v2_failed_calls_keep (calls1 := [[[5], [6]]]) hS (by
      intro d hd
      have : d ∈ [(⟨some "t".toList, 2, 0, 2, 1⟩ : DimProps), ⟨some "y".toList, 0, 1, 1, 1⟩, ⟨some "x".toList, 0, 1, 1, 1⟩] := hd
      simp only [List.mem_cons, List.not_mem_nil, or_false] at this
      rcases this with rfl | rfl | rfl <;> decide)
    Sample.storageOk rfl
    (a := ⟨some "t".toList, 2, 0, 2, 1⟩) (inner := []) (y := ⟨some "y".toList, 0, 1, 1, 1⟩)
    (x := ⟨some "x".toList, 0, 1, 1, 1⟩) rfl (root := "/tmp/a".toList) ⟨rfl, _, rfl, .inr (by decide)⟩
    (.inl ⟨_, rfl, by decide⟩) (by decide) (by decide) h0 h1 h2 h3 (.appended h4) (i := 0) (g := 0) (l := [0, 0])
    (by decide) (by decide) (by decide)
  exact ⟨_, final, ⟨_, _, _, h4, h5, rfl⟩, f2⟩

/-- Four frames complete the only shard of a layer of a version 3 store; then the next layer cannot be created:
`v3_failed_calls_keep` applies to the first layer. -/
example : ∃ tr final, (∃ st1 st2 rs, callsX [(Sample.env, [9]), (Sample.noDirs, [10]), (Sample.env, [11])] st1 = some (st2, rs) ∧
      none ∈ rs ∧ tr = st2.trace) ∧
    fileInStore Sample.world (Sample.slabCfg 2 2) "/tmp/a/data/root/0/c0/0/0".toList tr = some final := by
  obtain ⟨st0, st1, ns1, st2, rs, tr0, h0, h1, h2, h3, h4, h5⟩ := Sample.goesOn_spec (s := Sample.slab 2 2)
    (calls1 := [[5, 6, 7, 8]]) (more := [(Sample.env, [9]), (Sample.noDirs, [10]), (Sample.env, [11])]) (by decide +kernel)
  obtain ⟨final, _, f2⟩ := v3_failed_calls_keep (calls1 := [[[5], [6], [7], [8]]]) Sample.slabSetup (by decide) (by
      intro d hd
      have : d ∈ [(⟨some "t".toList, 2, 0, 2, 2⟩ : DimProps), ⟨some "y".toList, 0, 1, 1, 1⟩, ⟨some "x".toList, 0, 1, 1, 1⟩] := hd
      simp only [List.mem_cons, List.not_mem_nil, or_false] at this
      rcases this with rfl | rfl | rfl <;> decide)
    Sample.storageOk Sample.overhead rfl
    (a := ⟨some "t".toList, 2, 0, 2, 2⟩) (inner := []) (y := ⟨some "y".toList, 0, 1, 1, 1⟩)
    (x := ⟨some "x".toList, 0, 1, 1, 1⟩) rfl (root := "/tmp/a".toList) ⟨rfl, _, rfl, .inr (by decide)⟩
    (.inl ⟨_, rfl, by decide⟩) (by decide) (by decide) h0 h1 h2 h3 (.appended h4) (i := 0) (g := 0) (l := [0, 0])
    (by decide) (by decide) (by decide)
  exact ⟨_, final, ⟨_, _, _, h4, h5, rfl⟩, f2⟩

end AZ
