import Verif.Props.Api

set_option linter.unusedSimpArgs false

/-! # Disabled compressor (C37) -/

namespace AZ
open Spec

variable {w : World} {env : Env} {fuel : Nat} {s : Settings} {cfg : WConfig}

/-- Blosc rejects names of codecs it does not know. -/
def RejectsUnknownCodecs (env : Env) : Prop :=
  ∀ p bpp b, p.codecId = "unrecognized codec".toList → env.compress p bpp b = none

namespace Sample

/-- One-pixel frames, one frame per chunk, compressor None and codec None. -/
def tiny : Settings where
  storePath := some "/tmp/a".toList
  customMetadata := none
  s3 := none
  compression := some ⟨0, 0, 0, 0⟩
  dimensions := some [⟨some "t".toList, 2, 0, 1, 1⟩, ⟨some "y".toList, 0, 1, 1, 1⟩, ⟨some "x".toList, 0, 1, 1, 1⟩]
  multiscale := false
  dataType := 0
  version := 2

/-- Like `env`, with a Blosc that knows its codecs. -/
def blosc : Env := { Sample.env with
  compress := fun p _ b => if p.codecId = "unrecognized codec".toList then none else some (7 :: b) }

theorem blosc_rejects : RejectsUnknownCodecs blosc := by
  intro p bpp b h
  exact if_pos h

end Sample

/-- Whatever compressor is selected, the stream treats its data as compressed as soon as compression settings are
present: at every level the writers run Blosc over every chunk and the metadata names Blosc. -/
theorem compressor_ignored {st : SState} {c : CompressionSettings} (h : createStream w env fuel (some s) = some (.ok st))
    (hc : s.compression = some c) {lv : Level} (hl : lv ∈ st.levels) :
    lv.cfg.compression = some ⟨codecName c.codec, c.level, c.shuffle⟩ := by
  obtain ⟨cfg, cfgs, hcr⟩ := createStream_ok h
  rw [hcr.slevels] at hl
  obtain ⟨k, hk, rfl⟩ := List.mem_map.1 hl
  obtain ⟨i, hi⟩ := List.mem_iff_getElem?.1 hk
  show k.compression = _
  rw [← (levelConfigs_inherits hcr.levels hi).1.compression, (commit_fields hcr.commit).2.2.2.1, hc]
  rfl

/-- Conversely no compression happens when the compression settings pointer is NULL. -/
theorem no_compression_partial {st : SState} (h : createStream w env fuel (some s) = some (.ok st))
    (hc : s.compression = none) {lv : Level} (hl : lv ∈ st.levels) : lv.cfg.compression = none ∧
    ∀ b, storedForm env lv.cfg b = b := by
  obtain ⟨cfg, cfgs, hcr⟩ := createStream_ok h
  rw [hcr.slevels] at hl
  obtain ⟨k, hk, rfl⟩ := List.mem_map.1 hl
  obtain ⟨i, hi⟩ := List.mem_iff_getElem?.1 hk
  have : k.compression = none := by
    rw [← (levelConfigs_inherits hcr.levels hi).1.compression, (commit_fields hcr.commit).2.2.2.1, hc]
    rfl
  refine ⟨this, fun b => ?_⟩
  unfold storedForm
  rw [this]

def Sample.tinyStream : SState :=
  match createStream Sample.world Sample.blosc 9 (some Sample.tiny) with
  | some (.ok st) => st
  | _ => ⟨Sample.cfg, [], false, [], 0, [], []⟩

/-- **C37 is violated**: compressor None, codec None is accepted; the first frame is acknowledged
and every later append is refused. -/
theorem none_compressor_violated : RejectsUnknownCodecs Sample.blosc ∧
    createStream Sample.world Sample.blosc 9 (some Sample.tiny) = some (.ok Sample.tinyStream) ∧
    ∃ st', append Sample.blosc (appendFuel [5]) [5] Sample.tinyStream = some (.ok (st', 1)) ∧
      ∀ data, append Sample.blosc (appendFuel data) data st' = some .throw := by
  have h : (match append Sample.blosc (appendFuel [5]) [5] Sample.tinyStream with
    | some (.ok (st', 1)) => !st'.error.isEmpty
    | _ => false) = true := by decide +kernel
  refine ⟨Sample.blosc_rejects, rfl, ?_⟩
  split at h
  · rename_i st' heq
    refine ⟨st', heq, fun data => ?_⟩
    unfold append
    rw [if_pos h]
  · simp at h

end AZ
