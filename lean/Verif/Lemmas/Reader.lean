import Verif.Spec.Reader
import Verif.Spec.Logical
import Verif.Lemmas.Index

/-! # The reader of `Spec.Reader` on documents and elements -/

namespace Spec

theorem jsonOf_file {b : List UInt8} {v : JVal} (h : JsonFile b v) : jsonOf b = some v := by
  obtain ⟨t, h1, h2⟩ := h
  have e : b.toByteArray = t.utf8Encode := by
    rw [List.utf8Encode, h1]
  unfold jsonOf
  rw [e, List.utf8Decode?_utf8Encode]
  exact h2

namespace JVal

theorem nat?_num (n : Nat) : JVal.nat? (.num (n : Rat)) = some n := by
  simp [JVal.nat?]

theorem mapM_some {α β : Type} (f : α → Option β) (g : α → β) (l : List α) (h : ∀ a ∈ l, f a = some (g a)) :
    l.mapM f = some (l.map g) := by
  induction l with
  | nil => rfl
  | cons a l ih =>
    rw [List.mapM_cons, h a List.mem_cons_self, ih fun b hb => h b (List.mem_cons_of_mem _ hb)]
    rfl

theorem nats?_nats (l : List Nat) : JVal.nats? (.nats l) = some l := by
  show (l.map fun (n : Nat) => JVal.num (n : Rat)).mapM JVal.nat? = some l
  induction l with
  | nil => rfl
  | cons a l ih =>
    rw [List.map_cons, List.mapM_cons, nat?_num, ih]
    rfl

end JVal

/-- A reader opens a well-formed v2 array document. -/
theorem openV2_doc {file : List Char → Option (List UInt8)} {dir : List Char} {b : List UInt8} {v : JVal}
    {shape chunks : List Nat} {ty : String} {codec : Option (String × Nat × Nat)} {kind : NumKind} {item : Nat}
    (hb : file (dir ++ ".zarray".toList) = some b) (hv : JsonFile b v) (hd : ArrayDocV2 v shape chunks ty codec)
    (hty : readNumpyType ty.toList = some (kind, item)) :
    openV2 file dir = some ⟨shape, chunks, [], kind, item, codec.isSome⟩ := by
  unfold openV2
  have hj : jsonFile file (dir ++ ".zarray".toList) = some v := by
    unfold jsonFile; rw [hb]; exact jsonOf_file hv
  rw [hj]
  obtain ⟨c, hc, h1, h2⟩ : ∃ c, v.get? "compressor" = some c ∧
      (c.isNull = true ∨ (c.get? "id").bind JVal.str? = some "blosc".toList) ∧ (!c.isNull) = codec.isSome := by
    have := hd.compressor
    cases codec with
    | none => exact ⟨.null, this, .inl rfl, rfl⟩
    | some q =>
      obtain ⟨name, level, shuffle⟩ := q
      obtain ⟨c, c1, c2, _⟩ := this
      refine ⟨c, c1, .inr (by rw [c2]; rfl), ?_⟩
      cases c with
      | obj ms => rfl
      | _ => cases c2
  have two : ((2 : Rat)) = ((2 : Nat) : Rat) := rfl
  have zero : ((0 : Rat)) = ((0 : Nat) : Rat) := rfl
  have f1 : (v.get? "zarr_format").bind JVal.nat? = some 2 := by rw [hd.format, two]; exact JVal.nat?_num 2
  have f2 : (v.get? "fill_value").bind JVal.nat? = some 0 := by rw [hd.fill, zero]; exact JVal.nat?_num 0
  have f3 : (v.get? "order").bind JVal.str? = some "C".toList := by rw [hd.order]; rfl
  have f4 : (v.get? "filters").map JVal.isNull = some true := by rw [hd.filters]; rfl
  have f5 : (v.get? "dimension_separator").bind JVal.str? = some "/".toList := by rw [hd.separator]; rfl
  have f6 : (v.get? "shape").bind JVal.nats? = some shape := by rw [hd.shape]; exact JVal.nats?_nats _
  have f7 : (v.get? "chunks").bind JVal.nats? = some chunks := by rw [hd.chunks]; exact JVal.nats?_nats _
  have f8 : ((v.get? "dtype").bind JVal.str?).bind readNumpyType = some (kind, item) := by rw [hd.dtype]; exact hty
  simp only [f1, f2, f3, f4, f5, f6, f7, f8, hc, h1, h2, guard, if_true, Option.bind_eq_bind, Option.bind_some, Option.pure_def]

/-- A reader opens a well-formed v3 array document. -/
theorem openV3_doc {file : List Char → Option (List UInt8)} {root name : List Char} {b : List UInt8} {v : JVal}
    {shape chunks shards : List Nat} {ty : String} {codec : Option (String × Nat × Nat)} {kind : NumKind} {item : Nat}
    (hb : file (root ++ "/meta/root/".toList ++ name ++ ".array.json".toList) = some b) (hv : JsonFile b v)
    (hd : ArrayDocV3 v shape chunks shards ty codec) (hty : readV3Type ty.toList = some (kind, item)) :
    openV3 file root name = some ⟨shape, chunks, shards, kind, item, codec.isSome⟩ := by
  unfold openV3
  have hj : jsonFile file (root ++ "/meta/root/".toList ++ name ++ ".array.json".toList) = some v := by
    unfold jsonFile; rw [hb]; exact jsonOf_file hv
  rw [hj]
  obtain ⟨c, hc, h1, h2⟩ : ∃ c, v.get? "compressor" = some c ∧
      (c.isNull = true ∨ (c.get? "codec").bind JVal.str? = some "https://purl.org/zarr/spec/codec/blosc/1.0".toList) ∧
      (!c.isNull) = codec.isSome := by
    have := hd.compressor
    cases codec with
    | none => exact ⟨.null, this, .inl rfl, rfl⟩
    | some q =>
      obtain ⟨name, level, shuffle⟩ := q
      obtain ⟨c, d, c1, c2, _⟩ := this
      refine ⟨c, c1, .inr (by rw [c2]; rfl), ?_⟩
      cases c with
      | obj ms => rfl
      | _ => cases c2
  obtain ⟨g, g1, g2, g3, g4⟩ := hd.grid
  obtain ⟨t, conf, t1, t2, t3, t4, t5⟩ := hd.sharding
  have zero : ((0 : Rat)) = ((0 : Nat) : Rat) := rfl
  have f2 : (v.get? "fill_value").bind JVal.nat? = some 0 := by rw [hd.fill, zero]; exact JVal.nat?_num 0
  have f3 : (v.get? "chunk_memory_layout").bind JVal.str? = some "C".toList := by rw [hd.layout]; rfl
  have f4 : ((v.get? "extensions").bind JVal.arr?).map List.isEmpty = some true := by rw [hd.extensions]; rfl
  have f6 : (v.get? "shape").bind JVal.nats? = some shape := by rw [hd.shape]; exact JVal.nats?_nats _
  have g2' : (g.get? "chunk_shape").bind JVal.nats? = some chunks := by rw [g2]; exact JVal.nats?_nats _
  have g3' : (g.get? "separator").bind JVal.str? = some "/".toList := by rw [g3]; rfl
  have g4' : (g.get? "type").bind JVal.str? = some "regular".toList := by rw [g4]; rfl
  have f8 : ((v.get? "data_type").bind JVal.str?).bind readV3Type = some (kind, item) := by rw [hd.dtype]; exact hty
  have t1' : (v.get? "storage_transformers").bind JVal.arr? = some [t] := by rw [t1]; rfl
  have t2' : (t.get? "type").bind JVal.str? = some "indexed".toList := by rw [t2]; rfl
  have t3' : (t.get? "extension").bind JVal.str? =
      some "https://purl.org/zarr/spec/storage_transformers/sharding/1.0".toList := by rw [t3]; rfl
  have t5' : (conf.get? "chunks_per_shard").bind JVal.nats? = some shards := by rw [t5]; exact JVal.nats?_nats _
  simp only [f2, f3, f4, f6, g1, g2', g3', g4', f8, t1', t2', t3', t4, t5', hc, h1, h2, guard, if_true, Option.bind_eq_bind,
    Option.bind_some, Option.pure_def, List.length_cons, List.length_nil, List.head?_cons]

theorem datasetPaths_doc {m : JVal} {axes : List (List Char × String)} {ds : List (String × List Nat)}
    (h : MultiscalesDoc m axes ds) : datasetPaths m = some (ds.map fun d => d.1.toList) := by
  obtain ⟨m', rfl, _, _, l, l1, l2⟩ := h.version
  have hl : ∀ {l : List JVal}, List.Forall₂ (fun d x => d.get? "path" = some (JVal.text x.1) ∧ ∃ t,
        d.get? "coordinateTransformations" = some (.arr [t]) ∧ t.get? "type" = some (.text "scale") ∧
        t.get? "scale" = some (.nats x.2)) l ds →
      (l.mapM fun d => (d.get? "path").bind JVal.str?) = some (ds.map fun d => d.1.toList) := by
    intro l hl
    clear l1 l2 h
    induction hl with
    | nil => rfl
    | cons hab _ ih =>
      rw [List.mapM_cons, hab.1, ih]
      rfl
  unfold datasetPaths
  have e1 : (JVal.arr [m']).arr? = some [m'] := rfl
  have e2 : (JVal.arr l).arr? = some l := rfl
  simp only [e1, e2, l1, guard, if_true, Option.bind_eq_bind, Option.bind_some, Option.pure_def, List.length_cons,
    List.length_nil, List.head?_cons]
  exact hl l2

/-! ### Reading all the elements -/

theorem flatten_items (f : Nat → UInt8) (item n : Nat) :
    ((List.range n).map fun k => (List.range item).map fun s => f (k * item + s)).flatten = (List.range (n * item)).map f := by
  induction n with
  | zero => simp
  | succ n ih =>
    rw [List.range_succ, List.map_append, List.flatten_append, ih, Nat.succ_mul, List.range_add, List.map_append]
    simp [Function.comp_def]

theorem padded (data : List UInt8) {N : Nat} (h : data.length ≤ N) :
    ((List.range N).map fun b => data.getD b 0) = data ++ List.replicate (N - data.length) 0 := by
  apply List.ext_getElem (by simp; omega)
  intro k k1 k2
  simp only [List.getElem_map, List.getElem_range]
  rw [List.getElem_append]
  split
  · rename_i hk; simp [hk]
  · rename_i hk
    simp [List.getD_eq_getElem?_getD, List.getElem?_eq_none (Nat.le_of_not_lt hk)]

/-- Reading all elements of an array whose elements are those of a stream of bytes gives the stream, padded with zeros. -/
theorem read_all {read : List Nat → Option (List UInt8)} {T item : Nat} {tail : List Nat} {data : List UInt8}
    (h : ∀ t x, t < T → InBounds tail x → read (t :: x) = some ((List.range item).map fun s => logicalByte tail item data (t :: x) s))
    (hl : data.length ≤ prod (T :: tail) * item) :
    ∃ items, ((List.range (prod (T :: tail))).mapM fun k => read (unravel (T :: tail) k)) = some items ∧
      items.flatten = data ++ List.replicate (prod (T :: tail) * item - data.length) 0 := by
  refine ⟨_, JVal.mapM_some _ (fun k => (List.range item).map fun s => data.getD (k * item + s) 0) _ ?_, ?_⟩
  · intro k hk
    have hk := List.mem_range.1 hk
    have hin := unravel_inBounds hk
    have hr := ravel_unravel hk
    revert hin hr
    generalize unravel (T :: tail) k = x
    intro hin hr
    cases x with
    | nil => exact absurd hin id
    | cons t x =>
      rw [h t x hin.1 hin.2]
      congr 1
      apply List.map_congr_left
      intro s _
      unfold logicalByte
      rw [if_pos (show InBounds tail (t :: x).tail from hin.2), ← hr]
      rfl
  · rw [flatten_items (fun b => data.getD b 0), padded _ hl]

end Spec
