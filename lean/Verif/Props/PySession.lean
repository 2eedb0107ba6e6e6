import Verif.Spec.Attributes
import Verif.Model.PySession
import Verif.Props.Python
import Verif.Props.ReadBackV2
import Verif.Props.ReadBackV3

set_option linter.unusedSimpArgs false

/-! # C73, C74, C75: Python programs -/

namespace AZ.Py
open _root_.Spec AZ.Spec

/-! ### Sessions -/

section
variable {w : World} {env : Env} {fuel : Nat} {s : Settings}

theorem append_eq (st : SState) (m : Array) : append env st m =
    match AZ.append env (appendFuel (appendBytes m)) (appendBytes m) st with
    | none => .ub
    | some .ub => .ub
    | some .throw => .throw
    | some (.ok (st', _)) => .ok st' := by
  unfold append apiAppend
  dsimp only
  cases AZ.append env (appendFuel (appendBytes m)) (appendBytes m) st with
  | none => rfl
  | some r =>
    cases r with
    | ok v => obtain ⟨st', n⟩ := v; simp
    | throw => rfl
    | ub => rfl

theorem appendAll_ok {ms : List Array} {st st' : SState} {ns : List Nat}
    (h : appends env (ms.map appendBytes) st = .ok (st', ns)) : appendAll env ms st = .ok st' := by
  induction ms generalizing st ns with
  | nil =>
    simp only [List.map_nil, appends, Res.ok.injEq, Prod.mk.injEq] at h
    rw [appendAll, h.1]
  | cons m ms ih =>
    rw [List.map_cons, appends] at h
    rw [appendAll, append_eq]
    split at h <;> try cases h
    rename_i st1 n heq
    rw [heq]
    dsimp only
    obtain ⟨⟨st2, ns2⟩, h1, h2⟩ := Res.bind_eq_ok.1 h
    dsimp only at h2
    cases h2
    exact ih h1

/-- What a Python program does is what the C session does with the converted settings and the bytes of the arrays. -/
theorem session_ok {ms : List Array} {st : SState} {ns : List Nat} {tr : List Ev}
    (h : AZ.runStream w env fuel (toC s) (ms.map appendBytes) = some (.ok (st, ns, tr))) :
    session w env fuel s ms = some (.ok (st, .ok tr)) := by
  unfold AZ.runStream at h
  unfold session construct
  split at h <;> try cases h
  rename_i st0 hc
  rw [hc]
  dsimp only
  simp only [Option.some.injEq] at h
  obtain ⟨⟨st1, ns1⟩, h1, h2⟩ := Res.bind_eq_ok.1 h
  obtain ⟨tr1, h3, h4⟩ := Res.bind_eq_ok.1 h2
  cases h4
  rw [appendAll_ok h1]
  dsimp only
  dsimp only at h3
  rw [h3]

end

/-! ### Arrays as sequences of frames -/

theorem cOrder_eq (axes : List (Nat × Int)) (a : Int) : cOrder axes a = (indices axes).map (address axes a) := by
  induction axes generalizing a with
  | nil => rfl
  | cons d axes ih =>
    obtain ⟨n, stride⟩ := d
    rw [cOrder, indices, List.map_flatMap]
    congr 1
    funext i
    rw [ih, List.map_map]
    rfl

theorem cContiguous_lead {item : Nat} {lead tail : List (Nat × Int)} (h : CContiguous item (lead ++ tail)) :
    CContiguous (item * (tail.map (·.1)).prod) lead ∧ CContiguous item tail := by
  induction lead with
  | nil => exact ⟨trivial, h⟩
  | cons d lead ih =>
    obtain ⟨n, stride⟩ := d
    obtain ⟨h1, h2⟩ := h
    obtain ⟨k1, k2⟩ := ih h2
    refine ⟨⟨?_, k1⟩, k2⟩
    rw [h1]
    show ((item * ((lead ++ tail).map (·.1)).prod : Nat) : Int) = _
    rw [List.map_append, List.prod_append]
    congr 1
    rw [Nat.mul_assoc, Nat.mul_comm (List.prod (lead.map _))]

theorem bytesAt_length (mem : Int → UInt8) (a : Int) (n : Nat) : (bytesAt mem a n).length = n := by simp [bytesAt]

theorem slice_bytesAt (mem : Int → UInt8) (a : Int) {n o k : Nat} (h : o + k ≤ n) :
    slice (bytesAt mem a n) o k = bytesAt mem (a + (o : Int)) k := by
  obtain ⟨r, rfl⟩ : ∃ r, n = o + (k + r) := ⟨n - o - k, by omega⟩
  rw [bytesAt_add, bytesAt_add]
  unfold slice
  rw [List.drop_left' (bytesAt_length _ _ _), List.take_left' (bytesAt_length _ _ _)]

/-- An array of whole frames of `height` x `width` pixels of the stream's type, C-contiguous (any number of leading axes). -/
structure FramesOf (height width item : Nat) (m : Py.Array) : Prop where
  itemsize : m.itemsize = item
  shape : ∃ lead sy sx, m.axes = lead ++ [(height, sy), (width, sx)]
  contiguous : CContiguous m.itemsize m.axes

/-- The bytes of the plane of an array with leading index `i`. -/
def planeBytes (height width item : Nat) (p : Py.Array × List Nat) : Bytes :=
  bytesAt p.1.mem (address (p.1.axes.take (p.1.axes.length - 2)) p.1.ptr p.2) (item * (height * width))

theorem address_append {lead tail : List (Nat × Int)} {i is : List Nat} (h : i.length = lead.length) (a : Int) :
    address (lead ++ tail) a (i ++ is) = address tail (address lead a i) is := by
  induction lead generalizing a i with
  | nil =>
    cases i with
    | nil => simp [address]
    | cons _ _ => simp at h
  | cons d lead ih =>
    cases i with
    | nil => simp at h
    | cons k i =>
      simp only [List.cons_append, address]
      exact ih (by simpa using h) _

theorem indices_length {axes : List (Nat × Int)} {i : List Nat} (h : i ∈ indices axes) : i.length = axes.length := by
  induction axes generalizing i with
  | nil => rw [indices, List.mem_singleton] at h; rw [h]; rfl
  | cons d axes ih =>
    obtain ⟨n, st⟩ := d
    rw [indices, List.mem_flatMap] at h
    obtain ⟨k, _, h⟩ := h
    obtain ⟨j, hj, rfl⟩ := List.mem_map.1 h
    simp [ih hj]

theorem FramesOf.bytes {height width item : Nat} {m : Py.Array} (h : FramesOf height width item m) :
    ((planes m).map (planeBytes height width item)).flatten = appendBytes m := by
  obtain ⟨rfl, ⟨lead, sy, sx, hax⟩, hc⟩ := h
  rw [hax] at hc
  obtain ⟨c1, _⟩ := cContiguous_lead hc
  have ht : m.axes.take (m.axes.length - 2) = lead := by
    rw [hax]
    simp
  unfold planes planeBytes appendBytes Array.size
  rw [List.map_map, ht, hax]
  have := contiguous_bytes m.mem _ lead c1 m.ptr
  rw [cOrder_eq, List.flatMap_map] at this
  simp only [List.map_cons, List.map_nil, List.prod_cons, List.prod_nil, Nat.mul_one] at this
  have h2 : m.itemsize * (height * width) * (lead.map (·.1)).prod =
      m.itemsize * ((lead ++ [(height, sy), (width, sx)]).map (·.1)).prod := by
    rw [List.map_append, List.prod_append]
    simp only [List.map_cons, List.map_nil, List.prod_cons, List.prod_nil, Nat.mul_one]
    rw [Nat.mul_assoc, Nat.mul_comm (List.prod _)]
  rw [← h2, ← this, List.flatMap_def]
  congr 1
  apply List.map_congr_left
  intro i _
  show bytesAt m.mem (address (m.axes.take (m.axes.length - 2)) m.ptr i) _ = _
  rw [ht]

theorem FramesOf.pixel {height width item : Nat} {m : Py.Array} (h : FramesOf height width item m) {p : Py.Array × List Nat}
    (hp : p ∈ planes m) {y x : Nat} (hy : y < height) (hx : x < width) :
    pixelOf (planeBytes height width item p) width item y x = element p.1 (p.2 ++ [y, x]) := by
  obtain ⟨rfl, ⟨lead, sy, sx, hax⟩, hc⟩ := h
  rw [hax] at hc
  obtain ⟨_, c1, c2, _⟩ := cContiguous_lead hc
  have ht : m.axes.take (m.axes.length - 2) = lead := by
    rw [hax]
    simp
  unfold planes at hp
  rw [ht] at hp
  obtain ⟨i, hi, rfl⟩ := List.mem_map.1 hp
  unfold pixelOf planeBytes element
  dsimp only
  have hlt : (y * width + x) + 1 ≤ height * width := by
    have h1 : (y + 1) * width ≤ height * width := Nat.mul_le_mul_right _ hy
    rw [Nat.add_mul, Nat.one_mul] at h1
    omega
  have hle : (y * width + x) * m.itemsize + m.itemsize ≤ m.itemsize * (height * width) := by
    have h1 := Nat.mul_le_mul_left m.itemsize hlt
    rw [Nat.mul_add, Nat.mul_one, Nat.mul_comm m.itemsize (y * width + x)] at h1
    exact h1
  rw [slice_bytesAt _ _ hle, hax, address_append (indices_length hi)]
  have : (lead ++ [(height, sy), (width, sx)]).take ((lead ++ [(height, sy), (width, sx)]).length - 2) = lead := by simp
  rw [this]
  simp only [address]
  simp only [List.map_cons, List.map_nil, List.prod_cons, List.prod_nil, Nat.mul_one] at c1 c2
  rw [c1, c2]
  congr 1
  push_cast
  ring

/-! ### C73 -/

section
variable {w : World} {env : Env} {fuel : Nat} {s : Settings} {cfg : WConfig} {cfgs : List WConfig} {a y x : Dimension}
  {inner : List Dimension} {root : Text} {decode : Bytes → Option Bytes} {ms : List Array}

/-- A Python dimension as the C API sees it. -/
def Dimension.toC (d : Dimension) : DimProps := ⟨some (cStr d.name), d.kind, d.arraySize, d.chunkSize, d.shardSize⟩

theorem toC_dimensions (hd : s.dimensions = a :: (inner ++ [y, x])) :
    (toC s).dimensions = some (a.toC :: (inner.map Dimension.toC ++ [y.toC, x.toC])) := by
  show (if s.dimensions.isEmpty then none else some (s.dimensions.map Dimension.toC)) = _
  rw [hd]
  simp

theorem frames_of (hm : ∀ m ∈ ms, FramesOf y.arraySize x.arraySize (itemSize s.dataType) m) :
    (ms.map fun m => (planes m).map (planeBytes y.arraySize x.arraySize (itemSize s.dataType))).map List.flatten = ms.map appendBytes := by
  rw [List.map_map]
  exact List.map_congr_left fun m h => (hm m h).bytes

theorem frames_flatten : (ms.map fun m => (planes m).map (planeBytes y.arraySize x.arraySize (itemSize s.dataType))).flatten =
    (ms.flatMap planes).map (planeBytes y.arraySize x.arraySize (itemSize s.dataType)) := by
  rw [← List.flatMap_def, List.map_flatMap]

theorem frames_sized : ∀ c ∈ (ms.map fun m => (planes m).map (planeBytes y.arraySize x.arraySize (itemSize s.dataType))), ∀ f ∈ c,
    f.length = y.arraySize * x.arraySize * itemSize s.dataType := by
  intro c hc f hf
  obtain ⟨m, _, rfl⟩ := List.mem_map.1 hc
  obtain ⟨p, _, rfl⟩ := List.mem_map.1 hf
  rw [planeBytes, bytesAt_length, Nat.mul_comm]

/-- **C73, version 2.** A Python program appends C-contiguous arrays of whole frames of the stream's type to a stream on healthy
storage: no call raises, destruction succeeds, and `m[index, py, px]` of every array `m` reads back at the coordinate of its frame;
everything else reads as zero. Frames are numbered over all arrays in C order. -/
theorem python_elements_read_back (h : Setup w fuel (toC s) cfg cfgs) (hE : StorageOk env (toC s)) (hV : s.version = 2)
    (hd : s.dimensions = a :: (inner ++ [y, x])) (hr : StoredAt (toC s) root) (hfr : Fresh w (toC s) root)
    (hdec : Decodes env (toC s) decode) (hn : (ms.flatMap planes).length < 2 ^ 32)
    (hm : ∀ m ∈ ms, FramesOf y.arraySize x.arraySize (itemSize s.dataType) m) :
    ∃ st tr, session w env fuel s ms = some (.ok (st, .ok tr)) ∧
      ∀ (t : Nat) (i : List Nat) (py px : Nat), InBounds (inner.map (·.arraySize)) i → py < y.arraySize → px < x.arraySize →
        readV2 (fun p => fileInStore w cfg p tr) (levelDir root 0) decode ((a :: (inner ++ [y, x])).map (·.chunkSize))
          (itemSize s.dataType) (t :: (i ++ [py, px])) =
        some (match (ms.flatMap planes)[t * prod (inner.map (·.arraySize)) + ravel (inner.map (·.arraySize)) i]? with
          | some (m, index) => element m (index ++ [py, px])
          | none => List.replicate (itemSize s.dataType) 0) := by
  obtain ⟨st, tr, h1, _, h3⟩ := v2_read (calls := ms.map fun m => (planes m).map (planeBytes y.arraySize x.arraySize (itemSize s.dataType)))
    h hE hV (toC_dimensions hd) hr hfr hdec (by rw [frames_flatten, List.length_map]; exact hn) frames_sized
  rw [frames_of hm] at h1
  refine ⟨st, tr, session_ok h1, ?_⟩
  intro t i py px hi hy hx
  have hinner : (inner.map Dimension.toC).map (·.arraySize) = inner.map (·.arraySize) := by
    rw [List.map_map]; rfl
  have hchunk : ((a.toC :: (inner.map Dimension.toC ++ [y.toC, x.toC])).map (·.chunkSize)) = (a :: (inner ++ [y, x])).map (·.chunkSize) := by
    simp only [List.map_cons, List.map_append, List.map_map, List.map_nil]
    rfl
  have := h3 t i py px (by rw [hinner]; exact hi) hy hx
  rw [hchunk, hinner] at this
  refine this.trans ?_
  rw [frames_flatten, List.getElem?_map]
  cases hp : (ms.flatMap planes)[t * prod (inner.map (·.arraySize)) + ravel (inner.map (·.arraySize)) i]? with
  | none => rfl
  | some p =>
    obtain ⟨m, hmem, hpm⟩ := List.mem_flatMap.1 (List.mem_of_getElem? hp)
    show some (pixelOf (planeBytes _ _ _ p) x.arraySize (itemSize s.dataType) py px) = some (element p.1 (p.2 ++ [py, px]))
    rw [(hm m hmem).pixel hpm hy hx]

/-- **C73, version 3**, for one append chunk per shard. Missing: several append chunks per shard, for which C04 is violated. -/
theorem python_elements_read_back_v3_partial (h : Setup w fuel (toC s) cfg cfgs) (h3 : cfg.dims.FitsV3) (hE : StorageOk env (toC s))
    (ho : SmallOverhead env) (hV : s.version = 3)
    (hd : s.dimensions = a :: (inner ++ [y, x])) (hr : StoredAt (toC s) root) (hfr : Fresh w (toC s) root)
    (hdec : Decodes env (toC s) decode) (hn : (ms.flatMap planes).length < 2 ^ 32)
    (hm : ∀ m ∈ ms, FramesOf y.arraySize x.arraySize (itemSize s.dataType) m) (hone : a.shardSize = 1) :
    ∃ st tr, session w env fuel s ms = some (.ok (st, .ok tr)) ∧
      ∀ (t : Nat) (i : List Nat) (py px : Nat), InBounds (inner.map (·.arraySize)) i → py < y.arraySize → px < x.arraySize →
        readV3 (fun p => fileInStore w cfg p tr) (levelDirV3 root 0) decode ((a :: (inner ++ [y, x])).map (·.chunkSize))
          ((a :: (inner ++ [y, x])).map (·.shardSize)) (itemSize s.dataType) (t :: (i ++ [py, px])) =
        some (match (ms.flatMap planes)[t * prod (inner.map (·.arraySize)) + ravel (inner.map (·.arraySize)) i]? with
          | some (m, index) => element m (index ++ [py, px])
          | none => List.replicate (itemSize s.dataType) 0) := by
  obtain ⟨st, tr, h1, _, h3⟩ := v3_pixels_read_back_partial
    (calls := ms.map fun m => (planes m).map (planeBytes y.arraySize x.arraySize (itemSize s.dataType)))
    h h3 hE ho hV (toC_dimensions hd) hr hfr hdec (by rw [frames_flatten, List.length_map]; exact hn) frames_sized hone
  rw [frames_of hm] at h1
  refine ⟨st, tr, session_ok h1, ?_⟩
  intro t i py px hi hy hx
  have hinner : (inner.map Dimension.toC).map (·.arraySize) = inner.map (·.arraySize) := by
    rw [List.map_map]; rfl
  have hchunk : ((a.toC :: (inner.map Dimension.toC ++ [y.toC, x.toC])).map (·.chunkSize)) = (a :: (inner ++ [y, x])).map (·.chunkSize) := by
    simp only [List.map_cons, List.map_append, List.map_map, List.map_nil]
    rfl
  have hshard : ((a.toC :: (inner.map Dimension.toC ++ [y.toC, x.toC])).map (·.shardSize)) = (a :: (inner ++ [y, x])).map (·.shardSize) := by
    simp only [List.map_cons, List.map_append, List.map_map, List.map_nil]
    rfl
  have := h3 t i py px (by rw [hinner]; exact hi) hy hx
  rw [hchunk, hshard, hinner] at this
  refine this.trans ?_
  rw [frames_flatten, List.getElem?_map]
  cases hp : (ms.flatMap planes)[t * prod (inner.map (·.arraySize)) + ravel (inner.map (·.arraySize)) i]? with
  | none => rfl
  | some p =>
    obtain ⟨m, hmem, hpm⟩ := List.mem_flatMap.1 (List.mem_of_getElem? hp)
    show some (pixelOf (planeBytes _ _ _ p) x.arraySize (itemSize s.dataType) py px) = some (element p.1 (p.2 ++ [py, px]))
    rw [(hm m hmem).pixel hpm hy hx]

end

/-- The Python form of the sample settings: version 2, uint16, frames of 5 x 7 pixels, 3 channels, with pyramid. -/
def Sample.py : Settings :=
  ⟨"/tmp/a.zarr".toList, none, none, none, [⟨"t".toList, 2, 0, 2, 1⟩, ⟨"c".toList, 1, 3, 2, 2⟩, ⟨"y".toList, 0, 5, 2, 3⟩,
    ⟨"x".toList, 0, 7, 3, 1⟩], true, 1, 2⟩

theorem Sample.py_toC : toC Sample.py = AZ.Sample.settings := by decide +kernel

theorem Sample.py3_toC : toC { Sample.py with multiscale := false, version := 3 } = AZ.Sample.settings3 := by decide +kernel

/-- Two 2-D frames and a block of 4 frames, uint16. -/
def Sample.frameAt (mem : Int → UInt8) (p : Int) : Py.Array := ⟨mem, p, 2, [(5, 14), (7, 2)]⟩
def Sample.blockAt (mem : Int → UInt8) (p : Int) : Py.Array := ⟨mem, p, 2, [(2, 140), (2, 70), (5, 14), (7, 2)]⟩

theorem Sample.framesOf (mem : Int → UInt8) (p : Int) : FramesOf 5 7 2 (Sample.frameAt mem p) ∧ FramesOf 5 7 2 (Sample.blockAt mem p) :=
  ⟨⟨rfl, ⟨[], 14, 2, rfl⟩, by simp [CContiguous, Sample.frameAt]⟩, ⟨rfl, ⟨[(2, 140), (2, 70)], 14, 2, rfl⟩, by simp [CContiguous, Sample.blockAt]⟩⟩

/-- The program appends a frame, a block of 2 x 2 frames and a frame. Element [1, 0, 4, 6] of the block is in frame 3 of the stream
(time 1, channel 0) and reads back there. -/
example (mem : Int → UInt8) : ∃ st tr, session AZ.Sample.world AZ.Sample.env 9 Sample.py
      [Sample.frameAt mem 0, Sample.blockAt mem 1000, Sample.frameAt mem 70] = some (.ok (st, .ok tr)) ∧
    readV2 (fun p => fileInStore AZ.Sample.world AZ.Sample.cfg p tr) (levelDir "/tmp/a.zarr".toList 0) some [2, 2, 2, 3] 2 [1, 0, 4, 6] =
      some [mem 1208, mem 1209] := by
  obtain ⟨cfgs, h, _⟩ := AZ.Sample.setup
  have e := Sample.py_toC
  obtain ⟨st, tr, h1, h2⟩ := python_elements_read_back (s := Sample.py) (a := ⟨"t".toList, 2, 0, 2, 1⟩) (inner := [⟨"c".toList, 1, 3, 2, 2⟩])
    (y := ⟨"y".toList, 0, 5, 2, 3⟩) (x := ⟨"x".toList, 0, 7, 3, 1⟩) (decode := some)
    (ms := [Sample.frameAt mem 0, Sample.blockAt mem 1000, Sample.frameAt mem 70])
    (by rw [e]; exact h) (by rw [e]; exact AZ.Sample.storageOk) rfl rfl (by rw [e]; exact AZ.Sample.storedAt)
    (by rw [e]; exact AZ.Sample.fresh) (by rw [e]; exact fun _ => rfl) (by show (6 : Nat) < 2 ^ 32; decide)
    (by
      intro m hm
      simp only [List.mem_cons, List.not_mem_nil, or_false] at hm
      rcases hm with rfl | rfl | rfl
      · exact (Sample.framesOf mem _).1
      · exact (Sample.framesOf mem _).2
      · exact (Sample.framesOf mem _).1)
  refine ⟨st, tr, h1, (h2 1 [0] 4 6 (by decide) (by decide) (by decide)).trans ?_⟩
  rfl

/-! ### C74 -/

section
variable {w : World} {env : Env} {fuel : Nat} {s : Settings} {cfg : WConfig} {cfgs : List WConfig} {a y x : Dimension}
  {inner : List Dimension} {root : Text} {decode : Bytes → Option Bytes} {ms ms' : List Array}

/-- **C74 fails: type and shape are not looked at.** Two programs whose arrays have the same bytes have the same outcome, whatever
the types, shapes and numbers of dimensions of the arrays. -/
theorem python_shape_ignored_violated (h : ms.map appendBytes = ms'.map appendBytes) : session w env fuel s ms = session w env fuel s ms' := by
  have key : ∀ {ms ms' : List Array}, ms.map appendBytes = ms'.map appendBytes → ∀ st, appendAll env ms st = appendAll env ms' st := by
    intro ms
    induction ms with
    | nil =>
      intro ms' h st
      rw [List.map_nil, eq_comm, List.map_eq_nil_iff] at h
      rw [h]
    | cons m ms ih =>
      intro ms' h st
      cases ms' with
      | nil => simp at h
      | cons m' ms' =>
        simp only [List.map_cons, List.cons.injEq] at h
        rw [appendAll, appendAll, append_eq, append_eq, h.1]
        cases AZ.append env (appendFuel (appendBytes m')) (appendBytes m') st with
        | none => rfl
        | some r =>
          cases r with
          | ok v => exact ih h.2 _
          | throw => rfl
          | ub => rfl
  unfold session
  cases construct w env fuel s with
  | none => rfl
  | some r =>
    cases r with
    | ok st => dsimp only; rw [key h st]
    | throw => rfl
    | ub => rfl

/-- `n` consecutive blocks of `F` bytes. -/
def blocks (F : Nat) (b : Bytes) : Nat → List Bytes
  | 0 => []
  | n + 1 => b.take F :: blocks F (b.drop F) n

theorem blocks_flatten {F n : Nat} {b : Bytes} (h : b.length = F * n) : (blocks F b n).flatten = b := by
  induction n generalizing b with
  | zero =>
    have : b = [] := List.eq_nil_of_length_eq_zero (by simpa using h)
    rw [this]; rfl
  | succ n ih =>
    rw [Nat.mul_succ] at h
    rw [blocks, List.flatten_cons, ih (by rw [List.length_drop]; omega), List.take_append_drop]

theorem blocks_sized {F n : Nat} {b : Bytes} (h : b.length = F * n) : ∀ f ∈ blocks F b n, f.length = F := by
  induction n generalizing b with
  | zero => intro f hf; cases hf
  | succ n ih =>
    rw [Nat.mul_succ] at h
    intro f hf
    rw [blocks, List.mem_cons] at hf
    rcases hf with rfl | hf
    · rw [List.length_take]; omega
    · exact ih (by rw [List.length_drop]; omega) f hf

theorem uniform_getElem {F : Nat} {fs : List Bytes} (h : ∀ f ∈ fs, f.length = F) {k : Nat} {f : Bytes} (hk : fs[k]? = some f) :
    f = slice fs.flatten (k * F) F := by
  induction fs generalizing k with
  | nil => cases hk
  | cons g fs ih =>
    have hg := h g (by simp)
    cases k with
    | zero =>
      rw [List.getElem?_cons_zero, Option.some.injEq] at hk
      subst hk
      rw [slice, Nat.zero_mul, List.drop_zero, List.flatten_cons, List.take_left' hg]
    | succ k =>
      rw [List.getElem?_cons_succ] at hk
      rw [ih (fun f hf => h f (by simp [hf])) hk]
      unfold slice
      rw [List.flatten_cons, Nat.succ_mul, Nat.add_comm, ← List.drop_drop, List.drop_left' hg]

/-- **C74 fails: every array of the right number of bytes is stored.** Arrays of whole frames, counted in bytes, but of any type and
shape: no call raises, and the pixels of the dataset are slices of the concatenated bytes of the arrays. -/
theorem python_mismatch_violated (h : Setup w fuel (toC s) cfg cfgs) (hE : StorageOk env (toC s)) (hV : s.version = 2)
    (hd : s.dimensions = a :: (inner ++ [y, x])) (hr : StoredAt (toC s) root) (hfr : Fresh w (toC s) root)
    (hdec : Decodes env (toC s) decode)
    (hm : ∀ m ∈ ms, CContiguous m.itemsize m.axes ∧ y.arraySize * x.arraySize * itemSize s.dataType ∣ (tobytes m).length)
    (hn : (ms.flatMap tobytes).length < 2 ^ 32) :
    ∃ st tr, session w env fuel s ms = some (.ok (st, .ok tr)) ∧
      ∀ (t : Nat) (i : List Nat) (py px k : Nat), InBounds (inner.map (·.arraySize)) i → py < y.arraySize → px < x.arraySize →
        k = t * prod (inner.map (·.arraySize)) + ravel (inner.map (·.arraySize)) i →
        (k + 1) * (y.arraySize * x.arraySize * itemSize s.dataType) ≤ (ms.flatMap tobytes).length →
        readV2 (fun p => fileInStore w cfg p tr) (levelDir root 0) decode ((a :: (inner ++ [y, x])).map (·.chunkSize))
          (itemSize s.dataType) (t :: (i ++ [py, px])) =
        some (slice (ms.flatMap tobytes) (k * (y.arraySize * x.arraySize * itemSize s.dataType) +
          (py * x.arraySize + px) * itemSize s.dataType) (itemSize s.dataType)) := by
  generalize hF : y.arraySize * x.arraySize * itemSize s.dataType = F at *
  have hpos : 0 < F := by
    have hD := dimsOf h.valid h.commit (toC_dimensions hd)
    have hp := ArrayDims.frameBytes_pos h.dimsValid h.fits
    rw [hD.frame] at hp
    rw [← hF]
    exact hp
  obtain ⟨calls, hcalls⟩ : ∃ calls : List (List Bytes), calls = ms.map fun m => blocks F (appendBytes m) ((appendBytes m).length / F) := ⟨_, rfl⟩
  have hb : ∀ m ∈ ms, (appendBytes m).length = F * ((appendBytes m).length / F) := by
    intro m hmem
    rw [python_append_partial m (hm m hmem).1]
    exact (Nat.mul_div_cancel' (hm m hmem).2).symm
  have hsz : ∀ c ∈ calls, ∀ f ∈ c, f.length = F := by
    rw [hcalls]
    intro c hc
    obtain ⟨m, hmem, rfl⟩ := List.mem_map.1 hc
    exact blocks_sized (hb m hmem)
  have hfl : calls.map List.flatten = ms.map appendBytes := by
    rw [hcalls, List.map_map]
    exact List.map_congr_left fun m hmem => blocks_flatten (hb m hmem)
  have hall : calls.flatten.flatten = ms.flatMap tobytes := by
    rw [List.flatten_flatten, hfl, ← List.flatMap_def]
    exact List.flatMap_congr fun m hmem => python_append_partial m (hm m hmem).1
  have hsz2 : ∀ f ∈ calls.flatten, f.length = F := by
    intro f hf
    obtain ⟨c, hc, hfc⟩ := List.mem_flatten.1 hf
    exact hsz c hc f hfc
  have hlen : calls.flatten.length * F = (ms.flatMap tobytes).length := by
    have key : ∀ fs : List Bytes, (∀ f ∈ fs, f.length = F) → fs.length * F = fs.flatten.length := by
      intro fs
      induction fs with
      | nil => simp
      | cons g fs ih =>
        intro hfs
        rw [List.flatten_cons, List.length_append, ← ih (fun f hf => hfs f (by simp [hf])), hfs g (by simp), List.length_cons,
          Nat.succ_mul, Nat.add_comm]
    rw [← hall, key _ hsz2]
  obtain ⟨st, tr, h1, _, h3⟩ := v2_read (calls := calls) h hE hV (toC_dimensions hd) hr hfr hdec
    (lt_of_le_of_lt (Nat.le_mul_of_pos_right _ hpos) (hlen ▸ hn)) (by rw [show y.toC.arraySize * x.toC.arraySize * itemSize (toC s).dataType = F from hF]; exact hsz)
  rw [hfl] at h1
  refine ⟨st, tr, session_ok h1, ?_⟩
  intro t i py px k hi hy hx hk hkl
  have hinner : (inner.map Dimension.toC).map (·.arraySize) = inner.map (·.arraySize) := by
    rw [List.map_map]; rfl
  have hchunk : ((a.toC :: (inner.map Dimension.toC ++ [y.toC, x.toC])).map (·.chunkSize)) = (a :: (inner ++ [y, x])).map (·.chunkSize) := by
    simp only [List.map_cons, List.map_append, List.map_map, List.map_nil]
    rfl
  have := h3 t i py px (by rw [hinner]; exact hi) hy hx
  rw [hchunk, hinner, ← hk] at this
  refine this.trans ?_
  have hkk : k < calls.flatten.length := by
    rw [← hlen] at hkl
    exact Nat.lt_of_mul_lt_mul_right (lt_of_lt_of_le ((Nat.mul_lt_mul_right hpos).2 (Nat.lt_succ_self k)) hkl)
  rw [List.getElem?_eq_getElem hkk]
  have hu := uniform_getElem hsz2 (List.getElem?_eq_getElem hkk)
  show some (pixelOf _ x.arraySize (itemSize s.dataType) py px) = _
  rw [hu, hall]
  unfold pixelOf slice
  have hlt : (py * x.arraySize + px) * itemSize s.dataType + itemSize s.dataType ≤ F := by
    rw [← hF, ← Nat.succ_mul]
    refine Nat.mul_le_mul_right _ ?_
    have h1 : (py + 1) * x.arraySize ≤ y.arraySize * x.arraySize := Nat.mul_le_mul_right _ hy
    rw [Nat.add_mul, Nat.one_mul] at h1
    omega
  rw [List.drop_take, List.drop_drop, List.take_take, Nat.min_eq_left (by omega)]

end

/-- A uint32 array of 5 x 7 elements appended to the uint16 stream: accepted as two frames. Pixel (0, 1) of the first is the upper half
of element [0, 0]. -/
example (mem : Int → UInt8) : ∃ st tr, session AZ.Sample.world AZ.Sample.env 9 Sample.py [⟨mem, 0, 4, [(5, 28), (7, 4)]⟩] =
      some (.ok (st, .ok tr)) ∧
    readV2 (fun p => fileInStore AZ.Sample.world AZ.Sample.cfg p tr) (levelDir "/tmp/a.zarr".toList 0) some [2, 2, 2, 3] 2 [0, 0, 0, 1] =
      some [mem 2, mem 3] := by
  obtain ⟨cfgs, h, _⟩ := AZ.Sample.setup
  have e := Sample.py_toC
  have hl : (tobytes ⟨mem, 0, 4, [(5, 28), (7, 4)]⟩).length = 140 := rfl
  obtain ⟨st, tr, h1, h2⟩ := python_mismatch_violated (s := Sample.py) (a := ⟨"t".toList, 2, 0, 2, 1⟩) (inner := [⟨"c".toList, 1, 3, 2, 2⟩])
    (y := ⟨"y".toList, 0, 5, 2, 3⟩) (x := ⟨"x".toList, 0, 7, 3, 1⟩) (decode := some)
    (ms := [⟨mem, 0, 4, [(5, 28), (7, 4)]⟩])
    (by rw [e]; exact h) (by rw [e]; exact AZ.Sample.storageOk) rfl rfl (by rw [e]; exact AZ.Sample.storedAt)
    (by rw [e]; exact AZ.Sample.fresh) (by rw [e]; exact fun _ => rfl)
    (by
      intro m hm
      rw [List.mem_singleton] at hm
      subst hm
      exact ⟨by simp [CContiguous], by rw [hl]; exact ⟨2, rfl⟩⟩)
    (by rw [List.flatMap_singleton, hl]; decide)
  refine ⟨st, tr, h1, (h2 0 [0] 0 1 0 (by decide) (by decide) (by decide) (by decide) (by rw [List.flatMap_singleton, hl]; decide)).trans ?_⟩
  rfl

/-! ### C75 -/

/-- The attributes determine the settings. -/
theorem look_injective {s t : Settings} (h : look s = look t) : s = t := by
  have hd : s.dimensions = t.dimensions := by
    have hl : s.dimensions.length = t.dimensions.length := by
      have := congrFun h .dimensionCount
      simpa [look] using this
    refine List.ext_getElem hl fun i h1 h2 => ?_
    have hn := congrFun h (.dimensionName i)
    have hk := fun k => congrFun h (.dimension i k)
    simp only [look, List.getElem?_eq_getElem h1, List.getElem?_eq_getElem h2, Option.map_some, Option.some.injEq] at hn hk
    have h3 := hk .kind; have h4 := hk .arraySize; have h5 := hk .chunkSize; have h6 := hk .shardSize
    simp only [dimensionValue, Value.number.injEq, Value.text.injEq] at hn h3 h4 h5 h6
    generalize s.dimensions[i] = a at *
    generalize t.dimensions[i] = b at *
    cases a; cases b; simp_all
  have h3 : s.s3 = t.s3 := by
    have hk := fun k => congrFun h (.s3 k)
    simp only [look] at hk
    revert hk
    cases s.s3 <;> cases t.s3 <;> intro hk
    · rfl
    · simpa using hk .endpoint
    · simpa using hk .endpoint
    · rename_i a b
      have h3 := hk .endpoint; have h4 := hk .bucketName; have h5 := hk .accessKeyId; have h6 := hk .secretAccessKey
      cases a; cases b; simp_all [s3Value]
  have hc : s.compression = t.compression := by
    have hk := fun k => congrFun h (.compression k)
    simp only [look] at hk
    revert hk
    cases s.compression <;> cases t.compression <;> intro hk
    · rfl
    · simpa using hk .level
    · simpa using hk .level
    · rename_i a b
      have h3 := hk .compressor; have h4 := hk .codec; have h5 := hk .level; have h6 := hk .shuffle
      cases a; cases b; simp_all [compressionValue]
  have h1 := congrFun h .storePath
  have h2 := congrFun h .customMetadata
  have h4 := congrFun h .multiscale
  have h5 := congrFun h .dataType
  have h6 := congrFun h .version
  simp only [look, Option.some.injEq, Value.text.injEq, Value.number.injEq, Value.flag.injEq] at h1 h2 h4 h5 h6
  have h2 : s.customMetadata = t.customMetadata := by
    revert h2
    cases s.customMetadata <;> cases t.customMetadata <;> simp
  cases s; cases t; simp_all

/-- Afterwards the program sees what the statement means. -/
theorem exec_meaning (c : Assign) (h : (∀ k v, c ≠ .s3Attr k v) ∧ ∀ k v, c ≠ .compressionAttr k v) (s : Settings) :
    look (exec s c) = meaning (look s) c := by
  funext p
  obtain ⟨h1, h2⟩ := h
  cases c with
  | s3Attr k v => exact absurd rfl (h1 _ _)
  | compressionAttr k v => exact absurd rfl (h2 _ _)
  | addDimension v =>
    cases p <;> simp only [exec, look, meaning, replace, given, Option.getD_none]
    · simp
    · rename_i i
      rw [List.getElem?_append]
      split
      · have e : ¬ s.dimensions.length = i := by omega
        simp [e]
      · by_cases e : s.dimensions.length = i
        · simp [e]
        · rw [List.getElem?_eq_none (by simp; omega), List.getElem?_eq_none (by omega)]
          simp [e]
    · rename_i i k
      rw [List.getElem?_append]
      split
      · have e : ¬ s.dimensions.length = i := by omega
        simp [e]
      · by_cases e : s.dimensions.length = i
        · simp [e]
        · rw [List.getElem?_eq_none (by simp; omega), List.getElem?_eq_none (by omega)]
          simp [e]
  | dimensionName i v =>
    cases p <;> simp only [exec, look, meaning, replace, given, Option.getD_none]
    · simp
    · rename_i j
      rw [List.getElem?_modify]
      by_cases e : j = i
      · subst e
        obtain hd | ⟨d, hd⟩ := Option.eq_none_or_eq_some s.dimensions[j]? <;> simp [hd]
      · simp [e, Ne.symm e]
    · rename_i j k
      rw [List.getElem?_modify]
      cases s.dimensions[j]? with
      | none => rfl
      | some d =>
        by_cases e : i = j
        · simp only [e, if_true, Option.map_some]
          cases k <;> rfl
        · simp [e]
  | dimensionAttr i k v =>
    cases p <;> simp only [exec, look, meaning, replace, given, Option.getD_none]
    · simp
    · rename_i j
      rw [List.getElem?_modify]
      cases s.dimensions[j]? with
      | none => rfl
      | some d =>
        by_cases e : i = j
        · simp only [e, if_true, Option.map_some]
          cases k <;> rfl
        · simp [e]
    · rename_i j k'
      rw [List.getElem?_modify]
      by_cases e : j = i
      · subst e
        obtain hd | ⟨d, hd⟩ := Option.eq_none_or_eq_some s.dimensions[j]?
        · simp [hd]
        · cases k <;> cases k' <;> simp [hd, Dimension.set, dimensionValue]
      · simp [e, Ne.symm e]
  | _ => cases p <;> rfl

/-- **C75** for statements other than assignments to attributes of `settings.s3` and `settings.compression`: after any number of them the
program sees the values assigned, and hence (`look_injective`) the stream is made from them. Missing: the two kinds excluded, for which it
is false. -/
theorem assignments_take_effect_partial (cs : List Assign)
    (h : ∀ c ∈ cs, (∀ k v, c ≠ .s3Attr k v) ∧ ∀ k v, c ≠ .compressionAttr k v) (s : Settings) :
    look (cs.foldl exec s) = cs.foldl meaning (look s) := by
  induction cs generalizing s with
  | nil => rfl
  | cons c cs ih =>
    rw [List.foldl_cons, List.foldl_cons, ih (fun c' hc => h c' (by simp [hc])), exec_meaning c (h c (by simp))]

/-- **C75 fails.** `settings.s3.endpoint = v` and `settings.compression.level = v`, for any attribute and any value, change nothing: a
stream made afterwards is the one made before. -/
theorem nested_assignment_violated (s : Settings) : (∀ k v, toC (exec s (.s3Attr k v)) = toC s) ∧ ∀ k v, toC (exec s (.compressionAttr k v)) = toC s :=
  ⟨fun _ _ => rfl, fun _ _ => rfl⟩

/-- The compression level set by the program is neither the one it sees afterwards nor the one used. -/
theorem nested_level_violated (s : Settings) (c : Compression) (hc : s.compression = some c) (v : Nat) (hv : v ≠ c.level) :
    meaning (look s) (.compressionAttr .level v) (.compression .level) = some (.number v) ∧
    look (exec s (.compressionAttr .level v)) (.compression .level) ≠ some (.number v) ∧
    (toC (exec s (.compressionAttr .level v))).compression.map (·.level) ≠ some v := by
  refine ⟨by simp [meaning, replace, given, look, hc], ?_, ?_⟩
  · simp [look, exec, hc, compressionValue]
    exact fun h => hv h.symm
  · simp [toC, exec, hc]
    exact fun h => hv h.symm

example : [Assign.dimensionAttr 1 .chunkSize 8, .compression (some ⟨1, 1, 3, 1⟩), .storePath "/tmp/b".toList].foldl exec Sample.py =
    ⟨"/tmp/b".toList, none, none, some ⟨1, 1, 3, 1⟩, [⟨"t".toList, 2, 0, 2, 1⟩, ⟨"c".toList, 1, 3, 8, 2⟩, ⟨"y".toList, 0, 5, 2, 3⟩,
      ⟨"x".toList, 0, 7, 3, 1⟩], true, 1, 2⟩ := rfl

/-- The third dimension appended is seen at index 4 after the four of the example. -/
example : look (exec Sample.py (.addDimension ⟨"z".toList, 0, 9, 4, 1⟩)) (.dimension 4 .chunkSize) = some (.number 4) := rfl

end AZ.Py
