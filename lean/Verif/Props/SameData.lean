import Verif.Props.ReadBackV3

set_option linter.unusedSimpArgs false

/-! # C64: how the data is chunked, sharded, compressed and split into calls does not change what is read -/

namespace AZ
open Spec

/-- A finished recording: settings, circumstances and what was appended. -/
structure Recording where
  world : World
  env : Env
  fuel : Nat
  settings : Settings
  append : DimProps
  inner : List DimProps
  height : DimProps
  width : DimProps
  root : Text
  decode : Bytes → Option Bytes
  calls : List (List Bytes)
  events : List Ev

namespace Recording

/-- All dimensions, slowest first. -/
def dims (r : Recording) : List DimProps := r.append :: (r.inner ++ [r.height, r.width])

/-- The frames appended, in order. -/
def frames (r : Recording) : List Bytes := r.calls.flatten

/-- What a Zarr reader that follows the declared format version, chunk and shard sizes reads at coordinate `c`. -/
def read (r : Recording) (cfg : WConfig) (c : List Nat) : Option Bytes :=
  if r.settings.version = 2 then
    readV2 (fun p => fileInStore r.world cfg p r.events) (levelDir r.root 0) r.decode (r.dims.map (·.chunkSize))
      (itemSize r.settings.dataType) c
  else
    readV3 (fun p => fileInStore r.world cfg p r.events) (levelDirV3 r.root 0) r.decode (r.dims.map (·.chunkSize))
      (r.dims.map (·.shardSize)) (itemSize r.settings.dataType) c

/-- The recording succeeded on working storage: accepted settings within the size limits, the frames appended whole,
however distributed over calls; format version 2, or 3 with one append chunk per shard. -/
structure Done (r : Recording) (cfg : WConfig) : Prop where
  setup : ∃ cfgs, Setup r.world r.fuel r.settings cfg cfgs
  storage : StorageOk r.env r.settings
  version : r.settings.version = 2 ∨
    (r.settings.version = 3 ∧ cfg.dims.FitsV3 ∧ SmallOverhead r.env ∧ r.append.shardSize = 1)
  hasDims : r.settings.dimensions = some r.dims
  stored : StoredAt r.settings r.root
  fresh : Fresh r.world r.settings r.root
  decodes : Decodes r.env r.settings r.decode
  few : r.frames.length < 2 ^ 32
  whole : ∀ c ∈ r.calls, ∀ f ∈ c, f.length = r.height.arraySize * r.width.arraySize * itemSize r.settings.dataType
  run : ∃ st ns, runStream r.world r.env r.fuel r.settings (r.calls.map List.flatten) = some (.ok (st, ns, r.events))

/-- The two recordings are of the same array: same extents (the append dimension has none), same item size. -/
structure SameShape (r q : Recording) : Prop where
  inner : r.inner.map (·.arraySize) = q.inner.map (·.arraySize)
  height : r.height.arraySize = q.height.arraySize
  width : r.width.arraySize = q.width.arraySize
  item : itemSize r.settings.dataType = itemSize q.settings.dataType

theorem Done.read_eq {r : Recording} {cfg : WConfig} (h : r.Done cfg) {t : Nat} {i : List Nat} {py px : Nat}
    (hi : InBounds (r.inner.map (·.arraySize)) i) (hy : py < r.height.arraySize) (hx : px < r.width.arraySize) :
    r.read cfg (t :: (i ++ [py, px])) =
      some (match r.frames[t * prod (r.inner.map (·.arraySize)) + ravel (r.inner.map (·.arraySize)) i]? with
        | some f => pixelOf f r.width.arraySize (itemSize r.settings.dataType) py px
        | none => List.replicate (itemSize r.settings.dataType) 0) := by
  obtain ⟨cfgs, hS⟩ := h.setup
  obtain ⟨st, ns, hrun⟩ := h.run
  unfold read
  rcases h.version with hv | ⟨hv, h3, ho, hone⟩
  · rw [if_pos hv]
    obtain ⟨st', tr', k1, _, k3⟩ := v2_read hS h.storage hv h.hasDims h.stored h.fresh h.decodes h.few h.whole
    rw [hrun] at k1
    cases k1
    exact k3 t i py px hi hy hx
  · rw [if_neg (by rw [hv]; decide)]
    obtain ⟨st', tr', k1, _, k3⟩ := v3_pixels_read_back_partial hS h3 h.storage ho hv h.hasDims h.stored h.fresh h.decodes
      h.few h.whole hone
    rw [hrun] at k1
    cases k1
    exact k3 t i py px hi hy hx

end Recording

/-- **C64** except for version 3 streams with several append chunks per shard (for which it is false:
`append_shard_data_violated`). Two recordings of the same frames, in the same or different format versions, with any
chunk sizes, shard sizes of the inner dimensions, compression settings, store locations and distribution of the frames
over append calls: a reader sees the same array. -/
theorem same_data_partial {r q : Recording} {rc qc : WConfig} (hr : r.Done rc) (hq : q.Done qc) (hs : r.SameShape q)
    (hf : r.frames = q.frames) {t : Nat} {i : List Nat} {py px : Nat} (hi : InBounds (r.inner.map (·.arraySize)) i)
    (hy : py < r.height.arraySize) (hx : px < r.width.arraySize) :
    r.read rc (t :: (i ++ [py, px])) = q.read qc (t :: (i ++ [py, px])) ∧
    (r.read rc (t :: (i ++ [py, px]))).isSome := by
  rw [hr.read_eq hi hy hx, hq.read_eq (by rw [← hs.inner]; exact hi) (by rw [← hs.height]; exact hy)
    (by rw [← hs.width]; exact hx), hf, hs.inner, hs.width, hs.item]
  exact ⟨rfl, rfl⟩


namespace Sample

/-- The ragged sample array, recorded with the given settings. -/
def recording (s : Settings) (a : DimProps) (calls : List (List Bytes)) (tr : List Ev) : Recording :=
  ⟨world, env, 9, s, a, [dimC], dimY, dimX, "/tmp/a.zarr".toList, some, calls, tr⟩

/-- Eleven frames, all in one call. -/
def oneCall : List (List Bytes) := [calls.flatten]

theorem oneCall_sized : ∀ c ∈ oneCall, ∀ f ∈ c, f.length = dimY.arraySize * dimX.arraySize * itemSize settings3.dataType := by
  intro c hc f hf
  rw [oneCall, List.mem_singleton] at hc
  subst hc
  obtain ⟨d, hd, hfd⟩ := List.mem_flatten.1 hf
  exact calls_sized d hd f hfd

end Sample

/-- Two recordings for `same_data_partial`: version 2 with three pyramid levels and the frames in three calls, and version
3 with shards and one call. -/
example : ∃ r q : Recording, r.Done Sample.cfg ∧ q.Done Sample.cfg3 ∧ r.SameShape q ∧ r.frames = q.frames ∧
    r.frames.length = 11 ∧ r.settings.version ≠ q.settings.version ∧ r.calls ≠ q.calls := by
  obtain ⟨cfgs, h, _⟩ := Sample.setup
  obtain ⟨st, tr, h1, _⟩ := v2_read (calls := Sample.calls) h Sample.storageOk rfl
    (a := Sample.dimT) (inner := [Sample.dimC]) (y := Sample.dimY) (x := Sample.dimX) rfl Sample.storedAt Sample.fresh
    (decode := some) (fun _ => rfl) (by decide) Sample.calls_sized
  obtain ⟨st3, tr3, h3, _⟩ := v3_pixels_read_back_partial (calls := Sample.oneCall) Sample.setup3 Sample.fitsV3
    Sample.storageOk Sample.overhead rfl
    (a := Sample.dimT) (inner := [Sample.dimC]) (y := Sample.dimY) (x := Sample.dimX) rfl Sample.storedAt3 Sample.fresh3
    (decode := some) (fun _ => rfl) (by decide) Sample.oneCall_sized rfl
  have e : Sample.oneCall.flatten = Sample.calls.flatten := by
    unfold Sample.oneCall
    rw [List.flatten_cons, List.flatten_nil, List.append_nil]
  refine ⟨Sample.recording Sample.settings Sample.dimT Sample.calls tr,
    Sample.recording Sample.settings3 Sample.dimT Sample.oneCall tr3,
    ⟨⟨cfgs, h⟩, Sample.storageOk, .inl rfl, rfl, Sample.storedAt, Sample.fresh, fun _ => rfl, ?_, Sample.calls_sized,
      ⟨st, _, h1⟩⟩,
    ⟨⟨_, Sample.setup3⟩, Sample.storageOk, .inr ⟨rfl, Sample.fitsV3, Sample.overhead, rfl⟩, rfl, Sample.storedAt3,
      Sample.fresh3, fun _ => rfl, ?_, Sample.oneCall_sized, ⟨st3, _, h3⟩⟩, ⟨rfl, rfl, rfl, rfl⟩, e.symm, ?_, ?_, ?_⟩
  · show Sample.calls.flatten.length < 2 ^ 32
    decide
  · show Sample.oneCall.flatten.length < 2 ^ 32
    rw [e]
    decide
  · show Sample.calls.flatten.length = 11
    decide
  · show (2 : Nat) ≠ 3
    decide
  · intro h
    have := congrArg List.length h
    exact absurd this (by show ¬ Sample.calls.length = 1; decide)

/-- **C64 is violated** for version 3 streams: the same twelve frames recorded twice, with one and with two append chunks
per shard and otherwise identical settings; both recordings end without an error, and the reader sees different
arrays. -/
theorem append_shard_data_violated : ∃ tr tr2 : List Ev,
    (∃ st ns, runStream Sample.world Sample.env 9 Sample.settings3 (Sample.calls12.map List.flatten) = some (.ok (st, ns, tr)) ∧
      st.error = []) ∧
    (∃ st ns, runStream Sample.world Sample.env 9 Sample.settings32 (Sample.calls12.map List.flatten) = some (.ok (st, ns, tr2)) ∧
      st.error = []) ∧
    (Sample.recording Sample.settings3 Sample.dimT Sample.calls12 tr).read Sample.cfg3 [2, 0, 0, 0] = some [6, 9] ∧
    (Sample.recording Sample.settings32 Sample.dimT2 Sample.calls12 tr2).read Sample.cfg32 [2, 0, 0, 0] = some [0, 0] := by
  obtain ⟨st2, ns2, tr2, k1, k2, _, k3, _⟩ := v3_append_shards_violated
  obtain ⟨st, tr, h1, h2, h3⟩ := v3_pixels_read_back_partial (calls := Sample.calls12) Sample.setup3 Sample.fitsV3
    Sample.storageOk Sample.overhead rfl
    (a := Sample.dimT) (inner := [Sample.dimC]) (y := Sample.dimY) (x := Sample.dimX) rfl Sample.storedAt3 Sample.fresh3
    (decode := some) (fun _ => rfl) (by decide) (by
      intro c hc f hf
      rw [Sample.calls12, List.mem_singleton] at hc
      subst hc
      obtain ⟨k, _, rfl⟩ := List.mem_map.1 hf
      exact Sample.frame_length k) rfl
  refine ⟨tr, tr2, ⟨st, _, h1, h2⟩, ⟨st2, ns2, k1, k2⟩, ?_, k3⟩
  exact h3 2 [0] 0 0 (by decide) (by decide) (by decide)

end AZ
