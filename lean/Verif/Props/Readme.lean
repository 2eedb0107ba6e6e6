import Verif.Props.ReadBackV3

/-!
# C04: the acquisition of the README

The README's example (`/repo/README.md`, section Usage) is a Zarr V3 stream of 16-bit frames of 1080 x 1920 with 3 channels, 100 time points per chunk and
10 chunks per shard along the append dimension.
-/

namespace AZ
open Spec

namespace Readme

def t : DimProps := ⟨some "t".toList, 2, 0, 100, 10⟩
def c : DimProps := ⟨some "c".toList, 1, 3, 1, 1⟩
def y : DimProps := ⟨some "y".toList, 0, 1080, 270, 2⟩
def x : DimProps := ⟨some "x".toList, 0, 1920, 480, 2⟩

/-- The settings of the README. -/
def settings : Settings where
  storePath := some "my_stream.zarr".toList
  customMetadata := none
  s3 := none
  compression := none
  dimensions := some [t, c, y, x]
  multiscale := false
  dataType := 1
  version := 3

theorem setup : ∃ cfg, Setup Sample.world 9 settings cfg [cfg] ∧ cfg.dims.FitsV3 :=
  ⟨_, ⟨rfl, rfl, rfl, rfl, by decide, fun h => by cases h⟩, by decide⟩

theorem storageOk {env : Env} (h1 : ∀ r, env.makeSinks r = true) (h2 : ∀ p, env.makeMetaSink p = true)
    (h3 : ∀ p o d, env.write p o d = .stored) (h4 : ∀ p, env.finalize p = true) : StorageOk env settings :=
  ⟨h1, h2, h3, h4, nofun⟩

/-- **C04 is violated for the README's own example.** The acquisition is run for any number of full shards (`1000 K` time points of 3 channels), with storage that works; all calls
succeed. Of every 1000 time points a reader sees zeros at 900 (those from 100 on), and at the first 100 the pixels of the last 100. -/
theorem readme_example_violated {env : Env} (hE : StorageOk env settings) (ho : SmallOverhead env) {calls : List (List Bytes)} {K : Nat}
    (hK : calls.flatten.length = 3000 * K) (hn : 3000 * K < 2 ^ 32) (hf : ∀ c ∈ calls, ∀ f ∈ c, f.length = 1080 * 1920 * 2) :
    ∃ cfg st tr, Setup Sample.world 9 settings cfg [cfg] ∧
      runStream Sample.world env 9 settings (calls.map List.flatten) = some (.ok (st, calls.map (fun c => c.flatten.length), tr)) ∧ st.error = [] ∧
      ∀ (time channel py px : Nat), time < 1000 * K → channel < 3 → py < 1080 → px < 1920 →
        readV3 (fun p => fileInStore Sample.world cfg p tr) "my_stream.zarr/data/root/0/c".toList some [100, 1, 270, 480] [10, 1, 2, 2] 2
            [time, channel, py, px] =
          if time % 1000 < 100 then (calls.flatten[(time + 900) * 3 + channel]?).map fun f => pixelOf f 1920 2 py px
          else some [0, 0] := by
  obtain ⟨cfg, hs, h3⟩ := setup
  obtain ⟨st, tr, e1, e2, e3⟩ := v3_read_exact (calls := calls) hs h3 hE ho rfl (a := t) (inner := [c]) (y := y) (x := x) rfl
    (root := "my_stream.zarr".toList) ⟨rfl, _, rfl, .inr (by decide)⟩ (.inl ⟨_, rfl, by decide⟩) (decode := some) (fun _ => rfl)
    (by rw [hK]; exact hn) hf
  refine ⟨cfg, st, tr, hs, e1, e2, fun time channel py px ht hc hy hx => ?_⟩
  have hcf : chunksFor t [c] calls.flatten.length = 10 * K := by
    rw [hK]
    show ceilDiv (3000 * K) 300 = 10 * K
    unfold ceilDiv
    omega
  have hlay : 10 = min 10 (10 * K - time / 100 / 10 * 10) := by omega
  have := e3 time [channel] py px (by simp [InBounds, c]; exact hc) hy hx (time / 100) (time / 100 / 10) 10 rfl rfl
    (by rw [hcf]; exact hlay) (.inl (by rw [hcf]; show (time / 100 / 10 + 1) * 10 ≤ 10 * K; omega))
  refine Eq.trans this ?_
  by_cases hlt : time % 1000 < 100
  · rw [if_pos hlt, if_pos (by show time / 100 % 10 = 0; omega)]
    have hidx : (time / 100 + (10 - 1)) * t.chunkSize + time % t.chunkSize = time + 900 := by
      show (time / 100 + 9) * 100 + time % 100 = time + 900
      omega
    have hidx2 : ((time / 100 + (10 - 1)) * t.chunkSize + time % t.chunkSize) * prod ([c].map (·.arraySize)) + ravel ([c].map (·.arraySize)) [channel] =
        (time + 900) * 3 + channel := by
      rw [hidx]
      simp [prod, ravel, c]
    rw [hidx2]
    obtain ⟨f, hf'⟩ : ∃ f, calls.flatten[(time + 900) * 3 + channel]? = some f := ⟨_, List.getElem?_eq_getElem (by rw [hK]; omega)⟩
    rw [hf']
    rfl
  · rw [if_neg hlt, if_neg (by show ¬ time / 100 % 10 = 0; omega)]
    rfl

/-- The hypotheses are met by one shard of frames, appended in one call. -/
example : StorageOk Sample.env settings ∧ SmallOverhead Sample.env ∧
    ([List.replicate 3000 (List.replicate (1080 * 1920 * 2) (0 : UInt8))] : List (List Bytes)).flatten.length = 3000 * 1 :=
  ⟨storageOk (fun _ => rfl) (fun _ => rfl) (fun _ _ _ => rfl) (fun _ => rfl), Sample.overhead, by
    rw [List.flatten_cons, List.flatten_nil, List.append_nil, List.length_replicate]⟩

end Readme
end AZ
