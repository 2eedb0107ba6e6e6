import Verif.Props.ObjectsV3
import Verif.Props.StreamFiles
import Verif.Props.PyramidV3

/-! # C40, version 3: the shapes in the finished array documents -/

namespace AZ
open Spec

section
variable {w : World} {env : Env} {fuel : Nat} {s : Settings} {cfg : WConfig} {cfgs : List WConfig}
  {a y x : DimProps} {inner : List DimProps} {root : Text} {calls : List (List Bytes)}

/-- **C40, on the finished dataset** (V3): if all inner dimensions are channels or have size 1, then for every level whose document is
complete (as that of level 0: the frames do not end on a chunk boundary inside an append shard, C53) the shape in its array document is
the shape in level 0's array document divided by the scale factors of the group document, rounded up; along the append dimension
it may be one less (the frames that are still unpaired when the stream ends are dropped). -/
theorem multiscale_shapes_v3_partial (hj : JsonLib w) (hm : HasCustomText s) (h : Setup w fuel s cfg cfgs) (h3 : cfg.dims.FitsV3)
    (hz : SizesInRange s) (hr : RealCodec s) (hE : StorageOk env s) (ho : SmallOverhead env) (hV : s.version = 3)
    (hd : s.dimensions = some (a :: (inner ++ [y, x]))) (hl : StoredAt s root) (hfr : Fresh w s root)
    (hi : ∀ d ∈ inner, d.isChannel = true ∨ d.arraySize ≤ 1)
    (hn : calls.flatten.length < 2 ^ 32)
    (hf : ∀ c ∈ calls, ∀ f ∈ c, f.length = y.arraySize * x.arraySize * itemSize s.dataType)
    (hb : calls.flatten.length % framesPerAt 0 a inner ≠ 0 ∨ calls.flatten.length % (framesPerAt 0 a inner * shardAt 0 a) = 0) :
    ∃ st tr, runStream w env fuel s (calls.map List.flatten) =
        some (.ok (st, calls.map (fun c => c.flatten.length), tr)) ∧
      ∃ b v at_ m axes levels, fileInStore w cfg (root ++ "/meta/root.group.json".toList) tr = some b ∧ JsonFile b v ∧
        v.get? "attributes" = some at_ ∧ at_.get? "multiscales" = some m ∧ MultiscalesDoc m axes levels ∧ levels.length = cfgs.length ∧
        ∀ i, i < cfgs.length → 0 < calls.flatten.length / 2 ^ i →
          (calls.flatten.length / 2 ^ i % framesPerAt i a inner ≠ 0 ∨
            calls.flatten.length / 2 ^ i % (framesPerAt i a inner * shardAt i a) = 0) →
          ∃ scale b0 v0 rows0 sizes0 bi vi rows sizes, levels[i]? = some (String.ofList (decimal i), 2 ^ i :: scale) ∧
            fileInStore w cfg (root ++ '/' :: arrayDocName 3 0) tr = some b0 ∧ JsonFile b0 v0 ∧
            fileInStore w cfg (root ++ '/' :: arrayDocName 3 i) tr = some bi ∧ JsonFile bi vi ∧
            (∃ chunks shards, ArrayDocV3 v0 (rows0 :: sizes0) chunks shards (typeNameV3 s.dataType) (codecSetting s)) ∧
            (∃ chunks shards, ArrayDocV3 vi (rows :: sizes) chunks shards (typeNameV3 s.dataType) (codecSetting s)) ∧
            sizes = List.zipWith ceilDiv sizes0 scale ∧
            rows ≤ ceilDiv rows0 (2 ^ i) ∧ ceilDiv rows0 (2 ^ i) ≤ rows + 1 := by
  obtain ⟨hy, hx⟩ := yx_spatial h hd
  have h2' : ¬ s.version = 2 := by rw [hV]; decide
  obtain ⟨st, tr, h1, _, h2⟩ := v3_document_complete_partial (calls := calls) h h3 hz hr hE ho hV hd hl hfr hn hf
  obtain ⟨b, b1, v, at_, m, v1, v2, v3, v4⟩ := stream_files (name := "meta/root.group.json") hj hm h hE hd hl hfr hn hf h1 (by
    unfold streamDocNames; rw [if_neg h2']; simp) (by decide)
  refine ⟨st, tr, h1, b, v, at_, m, _, _, b1, v1, v2, v3, v4, by simp, fun i hlt hpos hbi => ?_⟩
  have hpos0 : 0 < calls.flatten.length := by
    have := Nat.div_le_self calls.flatten.length (2 ^ i)
    omega
  obtain ⟨b0, v0, e1, e2, e3⟩ := h2 0 (by omega) _ rfl (by rw [Nat.pow_zero, Nat.div_one]; exact hpos0) (by
    rw [Nat.pow_zero, Nat.div_one]; exact hb)
  obtain ⟨bi, vi, f1, f2, f3⟩ := h2 i hlt _ rfl hpos hbi
  unfold LevelDoc at e3 f3
  rw [if_neg h2'] at e3 f3
  refine ⟨List.replicate inner.length 1 ++ [2 ^ i, 2 ^ i], b0, v0, _, _, bi, vi, _, _, ?_, e1, e2, f1, f2, ⟨_, _, e3⟩, ⟨_, _, f3⟩,
    (inner_scale_iff inner hy hx i).2 (.inr hi), ?_⟩
  · rw [List.getElem?_map, List.getElem?_range hlt]; rfl
  · have hsame : sizesAt i inner = sizesAt 0 inner := by
      unfold sizesAt
      apply List.map_congr_left
      intro d hdm
      rw [levelSize_zero]
      exact (levelSize_same_iff _ _ _).2 (.inr (hi d hdm))
    rw [hsame, Nat.pow_zero, Nat.div_one]
    apply rows_within_one
    apply prod_pos
    intro n hnm
    obtain ⟨d, hdm, rfl⟩ := List.mem_map.1 hnm
    rw [levelSize_zero]
    obtain ⟨ds, hds, hda⟩ := (validateSettings_ok h.valid).dims
    rw [hd] at hds
    cases hds
    exact hda.tail d (by simp [hdm])

end

/-- The theorem applies to eleven frames of the uint8 sample in version 3 with two append chunks per shard (three levels): the frames of
level 0 and of level 1 (five frames) end inside a chunk. -/
example : ∃ cfg st tr, runStream Sample.world Sample.env 9 Sample.settings83 (Sample.calls8.map List.flatten) =
        some (.ok (st, Sample.calls8.map (fun c => c.flatten.length), tr)) ∧
      ∃ levels scale bi vi rows sizes chunks shards, (levels : List (String × List Nat)).length = 3 ∧ levels[1]? = some (String.ofList (decimal 1), 2 ^ 1 :: scale) ∧
        fileInStore Sample.world cfg ("/tmp/a.zarr".toList ++ '/' :: arrayDocName 3 1) tr = some bi ∧ JsonFile bi vi ∧
        ArrayDocV3 vi (rows :: sizes) chunks shards (typeNameV3 Sample.settings83.dataType) (codecSetting Sample.settings83) := by
  obtain ⟨cfg, cfgs, h, hl, h3⟩ := Sample.setup83
  obtain ⟨st, tr, h1, b, v, at_, m, axes, levels, e1, e2, e3, e4, e5, e6, e7⟩ := multiscale_shapes_v3_partial (calls := Sample.calls8)
    Sample.jsonLib (by intro m hm; cases hm) h h3 (sizes_in_range_of rfl (by decide)) (by intro c hc; cases hc)
    Sample.storageOk Sample.overhead rfl
    (a := { Sample.dimT with shardSize := 2 }) (inner := [{ Sample.dimC with shardSize := 1 }])
    (y := { Sample.dimY with shardSize := 1 }) (x := { Sample.dimX with shardSize := 1 }) rfl Sample.storedAt Sample.fresh
    (by decide) (by decide) Sample.calls8_sized (by decide)
  obtain ⟨scale, b0, v0, rows0, sizes0, bi, vi, rows, sizes, k1, _, _, k4, k5, _, ⟨chunks, shards, k7⟩, _⟩ := e7 1 (by omega) (by decide) (by decide)
  exact ⟨cfg, st, tr, h1, levels, scale, bi, vi, rows, sizes, chunks, shards, e6.trans hl, k1, k4, k5, k7⟩

end AZ
