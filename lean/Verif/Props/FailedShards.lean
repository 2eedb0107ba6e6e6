import Verif.Props.FailedChunks
import Verif.Props.ReadBackV3
import Verif.Lemmas.S3Store

set_option linter.unusedSimpArgs false
set_option linter.unusedVariables false

/-! # C66, version 3: what failing storage can do to shards -/

namespace AZ
open Exc Spec

/-- Every byte of `f` is the byte of `g` at its place, or zero. -/
def NearBytes (f g : Bytes) : Prop := ∀ (j : Nat) (b : UInt8), f[j]? = some b → b = 0 ∨ g[j]? = some b

theorem Cut.cons {x rest : List Ev} {e : Ev} (h : Cut x (e :: rest)) :
    x = [] ∨ (∃ y, x = e :: y ∧ Cut y rest) ∨ ((∃ p o d, e = .wrote p o d) ∧ Cut x rest) := by
  obtain ⟨pre, hp, ht⟩ := h
  cases pre with
  | nil => cases ht; exact .inl rfl
  | cons e' pre =>
    rw [List.cons_prefix_cons] at hp
    obtain ⟨rfl, hp⟩ := hp
    cases ht with
    | keep _ ht => exact .inr (.inl ⟨_, rfl, pre, hp, ht⟩)
    | lost p o d ht => exact .inr (.inr ⟨⟨p, o, d, rfl⟩, pre, hp, ht⟩)

theorem Cut.nil (b : List Ev) : Cut [] b := ⟨[], List.nil_prefix, .nil⟩

theorem pwrite_past {f d : Bytes} {off : Nat} (h : f.length ≤ off) : pwrite f off d = f ++ List.replicate (off - f.length) 0 ++ d := by
  unfold pwrite
  rw [List.take_of_length_le (by simp; omega), List.drop_eq_nil_of_le (by omega), List.append_nil]

/-- The same chunks, some of them replaced by zeros. -/
def LostParts (ps qs : List (Nat × Bytes)) : Prop :=
  List.Forall₂ (fun p q => q.1 = p.1 ∧ (q.2 = p.2 ∨ q.2 = List.replicate p.2.length 0)) ps qs

theorem LostParts.total {ps qs : List (Nat × Bytes)} (h : LostParts ps qs) : totalLen qs = totalLen ps := by
  unfold LostParts at h
  induction h with
  | nil => rfl
  | @cons p q ps qs hpq _ ih =>
    rw [totalLen_cons, totalLen_cons, ih]
    rcases hpq.2 with e | e <;> rw [e] <;> simp

theorem LostParts.zeros (ps : List (Nat × Bytes)) : ∃ qs, LostParts ps qs ∧ qs.flatMap (·.2) = List.replicate (totalLen ps) 0 := by
  induction ps with
  | nil => exact ⟨[], .nil, rfl⟩
  | cons p ps ih =>
    obtain ⟨qs, h1, h2⟩ := ih
    exact ⟨(p.1, List.replicate p.2.length 0) :: qs, .cons ⟨rfl, .inr rfl⟩ h1, by
      rw [List.flatMap_cons, h2, totalLen_cons, ← List.replicate_append_replicate]⟩

theorem LostParts.near {ps qs : List (Nat × Bytes)} (h : LostParts ps qs) : NearBytes (qs.flatMap (·.2)) (ps.flatMap (·.2)) := by
  unfold LostParts at h
  induction h with
  | nil => intro j b hj; simp at hj
  | @cons p q ps qs hpq _ ih =>
    have hl : q.2.length = p.2.length := by rcases hpq.2 with e | e <;> rw [e]; simp
    intro j b hj
    rw [List.flatMap_cons, List.getElem?_append] at hj ⊢
    rw [hl] at hj
    split at hj
    · rename_i hc
      rw [if_pos hc]
      rcases hpq.2 with e | e
      · rw [e] at hj; exact .inr hj
      · rw [e, List.getElem?_replicate, if_pos hc] at hj
        cases hj; exact .inl rfl
    · rename_i hc
      rw [if_neg hc]
      exact ih _ _ hj

theorem stepFile_wrote (p : Text) (f : Bytes) (off : Nat) (d : Bytes) :
    stepFile p (some f) (.wrote p off d) = some (if d.isEmpty then f else pwrite f off d) := by
  simp [stepFile, Ev.path]

/-- Writes at increasing places, some of them missing. -/
theorem cut_writes {p : Text} {off : Nat} {parts : List (Nat × Bytes)} {rest x : List Ev} {f : Bytes}
    (h : Cut x (writesAt p off parts ++ rest)) (hl : f.length ≤ off) :
    ∃ f' x' qs, x.foldl (stepFile p) (some f) = x'.foldl (stepFile p) (some f') ∧ Cut x' rest ∧
      f'.length ≤ off + totalLen parts ∧ LostParts parts qs ∧
      f' ++ List.replicate (off + totalLen parts - f'.length) 0 = f ++ List.replicate (off - f.length) 0 ++ qs.flatMap (·.2) := by
  induction parts generalizing off f x with
  | nil => exact ⟨f, x, [], rfl, h, by simpa [totalLen] using hl, .nil, by simp [totalLen]⟩
  | cons q parts ih =>
    obtain ⟨k, d⟩ := q
    rw [totalLen_cons, ← Nat.add_assoc]
    dsimp only
    have h : Cut x (.wrote p off d :: (writesAt p (off + d.length) parts ++ rest)) := h
    have hz : List.replicate (off + d.length - f.length) (0 : UInt8) =
        List.replicate (off - f.length) 0 ++ List.replicate d.length 0 := by
      rw [List.replicate_append_replicate]
      congr 1
      omega
    rcases h.cons with rfl | ⟨y, rfl, h'⟩ | ⟨_, h'⟩
    · obtain ⟨qs, z1, z2⟩ := LostParts.zeros ((k, d) :: parts)
      refine ⟨f, [], qs, rfl, .nil _, by omega, z1, ?_⟩
      rw [z2, List.append_assoc, List.replicate_append_replicate]
      congr 2
      rw [totalLen_cons]
      dsimp only
      omega
    · rw [List.foldl_cons, stepFile_wrote]
      by_cases he : d.isEmpty = true
      · rw [if_pos he]
        have hd : d = [] := by simpa using he
        obtain ⟨f', x', qs, k1, k2, k3, k4, k5⟩ := ih (f := f) h' (by omega)
        refine ⟨f', x', (k, d) :: qs, k1, k2, k3, .cons ⟨rfl, .inl rfl⟩ k4, ?_⟩
        rw [k5, hd]
        simp
      · rw [if_neg he]
        obtain ⟨f', x', qs, k1, k2, k3, k4, k5⟩ := ih (f := pwrite f off d) h' (by
          rw [pwrite_past hl]
          simp only [List.length_append, List.length_replicate]
          omega)
        refine ⟨f', x', (k, d) :: qs, k1, k2, k3, .cons ⟨rfl, .inl rfl⟩ k4, ?_⟩
        rw [k5, pwrite_past hl]
        have : off + d.length - (f ++ List.replicate (off - f.length) 0 ++ d).length = 0 := by
          simp only [List.length_append, List.length_replicate]
          omega
        rw [this]
        simp
    · obtain ⟨f', x', qs, k1, k2, k3, k4, k5⟩ := ih (f := f) h' (by omega)
      refine ⟨f', x', (k, List.replicate d.length 0) :: qs, k1, k2, k3, .cons ⟨rfl, .inr rfl⟩ k4, ?_⟩
      rw [k5, hz]
      simp only [List.flatMap_cons, List.append_assoc]

theorem foldl_cut_close {p : Text} {x : List Ev} {e : Ev} (h : Cut x [e]) (he : e = .finalized p ∨ e = .dropped p) (cur : Option Bytes) :
    x.foldl (stepFile p) cur = cur := by
  rcases h.cons with rfl | ⟨y, rfl, h'⟩ | ⟨⟨q, o, d, rfl⟩, _⟩
  · rfl
  · obtain ⟨pre, hp, ht⟩ := h'
    rw [List.prefix_nil] at hp
    subst hp
    cases ht
    rcases he with rfl | rfl <;> simp [stepFile, Ev.path]
  · rcases he with he | he <;> cases he

/-- What a cut history can leave of a shard file. -/
theorem cut_shard {p : Text} {parts : List (Nat × Bytes)} {table : Bytes} {e : Ev} {x : List Ev}
    (h : Cut x (.opened p :: (writesAt p 0 parts ++ ([.wrote p (totalLen parts) table] ++ [e]))))
    (he : e = .finalized p ∨ e = .dropped p) (ht : table ≠ []) :
    fileAfter p x = none ∨ ∃ f qs, fileAfter p x = some f ∧ LostParts parts qs ∧
      ((f.length ≤ totalLen parts ∧ f <+: qs.flatMap (·.2)) ∨ f = qs.flatMap (·.2) ++ table) := by
  rcases h.cons with rfl | ⟨y, rfl, h'⟩ | ⟨⟨q, o, d, hx⟩, _⟩
  · exact .inl rfl
  · right
    have h1 : stepFile p none (.opened p) = some [] := by simp [stepFile, Ev.path]
    unfold fileAfter
    rw [List.foldl_cons, h1]
    obtain ⟨f', x', qs, k1, k2, k3, k4, k5⟩ := cut_writes (f := []) h' (by simp)
    rw [Nat.zero_add] at k3 k5
    have k5 : f' ++ List.replicate (totalLen parts - f'.length) 0 = qs.flatMap (·.2) := by simpa using k5
    rw [k1]
    rcases Cut.cons k2 with rfl | ⟨y2, rfl, h2⟩ | ⟨_, h2⟩
    · exact ⟨f', qs, rfl, k4, .inl ⟨k3, _, k5⟩⟩
    · rw [List.foldl_cons, stepFile_wrote, if_neg (by simpa using ht), foldl_cut_close h2 he]
      exact ⟨_, qs, rfl, k4, .inr (by rw [pwrite_past k3, k5])⟩
    · rw [foldl_cut_close h2 he]
      exact ⟨f', qs, rfl, k4, .inl ⟨k3, _, k5⟩⟩
  · cases hx

theorem gridOf_len {c x : List Nat} (h : x.length = c.length) : (gridOf c x).length = c.length := by
  induction c generalizing x with
  | nil => cases x <;> simp [gridOf]
  | cons k c ih =>
    cases x with
    | nil => simp at h
    | cons v x => simp [gridOf, ih (by simpa using h)]

theorem split_last (ps : List (Nat × Bytes)) (s : Nat) :
    (∀ x ∈ ps, x.1 ≠ s) ∨ ∃ a d b, ps = a ++ (s, d) :: b ∧ ∀ x ∈ b, x.1 ≠ s := by
  induction ps with
  | nil => exact .inl (by simp)
  | cons q ps ih =>
    rcases ih with h | ⟨a, d, b, rfl, h⟩
    · by_cases hq : q.1 = s
      · right
        exact ⟨[], q.2, ps, by rw [← hq]; rfl, h⟩
      · left
        intro x hx
        rcases List.mem_cons.1 hx with rfl | hx
        · exact hq
        · exact h x hx
    · exact .inr ⟨q :: a, d, b, rfl, h⟩

theorem LostParts.split {a b qs : List (Nat × Bytes)} {s : Nat} {d : Bytes} (h : LostParts (a ++ (s, d) :: b) qs) :
    ∃ a' d' b', qs = a' ++ (s, d') :: b' ∧ totalLen a' = totalLen a ∧ (d' = d ∨ d' = List.replicate d.length 0) := by
  induction a generalizing qs with
  | nil =>
    cases h with
    | @cons _ q _ qs' h1 h2 =>
      obtain ⟨q1, q2⟩ := q
      obtain ⟨rfl, h1⟩ := h1
      exact ⟨[], q2, qs', rfl, rfl, h1⟩
  | cons p a ih =>
    cases h with
    | @cons _ q _ qs' h1 h2 =>
      obtain ⟨a', d', b', rfl, k1, k2⟩ := ih h2
      refine ⟨q :: a', d', b', rfl, ?_, k2⟩
      rw [totalLen_cons, totalLen_cons, k1]
      rcases h1.2 with e | e <;> rw [e] <;> simp

/-- A reader of a shard in which chunks have been replaced by zeros. -/
theorem read_lost {D : ArrayDims} {ps qs : List (Nat × Bytes)} {file file0 : Text → Option Bytes} {dir : Text}
    {decode : Bytes → Option Bytes} {chunks shards : List Nat} {item : Nat} {x : List Nat}
    (hz : ∀ n z, decode (List.replicate n 0) = some z → z = List.replicate n 0)
    (hs : D.slotCount = prod shards) (hpos : ∀ k ∈ shards, 0 < k) (hcpos : ∀ k ∈ chunks, 0 < k) (hxlen : x.length = chunks.length) (hlen : (gridOf chunks x).length = shards.length)
    (htot : totalLen ps < 2 ^ 64) (hl : LostParts ps qs)
    (h0 : file0 (dir ++ chunkKey (gridOf shards (gridOf chunks x))) = some (ps.flatMap (·.2) ++ (tableOf D ps).flatMap u64le))
    (h1 : file (dir ++ chunkKey (gridOf shards (gridOf chunks x))) = some (qs.flatMap (·.2) ++ (tableOf D ps).flatMap u64le)) :
    readV3 file dir decode chunks shards item x ∈
      [readV3 file0 dir decode chunks shards item x, some (List.replicate item 0), none] := by
  have hslot : ravel shards (withinOf shards (gridOf chunks x)) < D.slotCount := by
    rw [hs]
    exact ravel_lt (withinOf_inBounds hpos hlen)
  unfold readV3
  dsimp only
  rw [h0, h1, ← hs]
  dsimp only
  generalize ravel shards (withinOf shards (gridOf chunks x)) = slot at *
  have tl : (tableOf D ps).length = 2 * D.slotCount := by simp [tableOf]
  rcases split_last ps slot with hn | ⟨a, d, b, rfl, hb⟩
  · obtain ⟨e1, e2⟩ := setParts_other (t := List.replicate (2 * D.slotCount) u64Max) (off := 0) hn
    rw [List.getElem?_replicate, if_pos (by omega)] at e1 e2
    rw [shardEntry_table tl e1 e2 (by unfold u64Max; omega) (by unfold u64Max; omega),
      shardEntry_table tl e1 e2 (by unfold u64Max; omega) (by unfold u64Max; omega)]
    simp
  · obtain ⟨e1, e2⟩ := setParts_last (t := List.replicate (2 * D.slotCount) u64Max) (off := 0) (a := a) (d := d) (b := b) (s := slot)
      (by simp; omega) hb
    rw [Nat.zero_add] at e1
    have htot' : totalLen a + d.length + totalLen b < 2 ^ 64 := by
      rw [totalLen_append, totalLen_cons] at htot
      dsimp only at htot
      omega
    have hne : ¬ (totalLen a = u64Max ∧ d.length = u64Max) := by unfold u64Max; omega
    have tl' := tl
    generalize htab : tableOf D (a ++ (slot, d) :: b) = table at *
    unfold tableOf at htab
    rw [htab] at e1 e2
    rw [shardEntry_table tl e1 e2 (by omega) (by omega), shardEntry_table tl e1 e2 (by omega) (by omega), if_neg hne]
    dsimp only
    have htq := hl.total
    obtain ⟨a', d', b', rfl, k1, k2⟩ := hl.split
    have hd' : d'.length = d.length := by rcases k2 with e | e <;> rw [e]; simp
    have s0 := slice_parts a b slot d (table.flatMap u64le)
    have s1 := slice_parts a' b' slot d' (table.flatMap u64le)
    rw [k1, hd'] at s1
    unfold slice at s0 s1
    rw [s0, s1]
    have hfit : ∀ ps : List (Nat × Bytes), totalLen ps = totalLen (a ++ (slot, d) :: b) →
        totalLen a + d.length ≤ (ps.flatMap (·.2) ++ table.flatMap u64le).length := by
      intro ps hp
      rw [List.length_append, totalLen_eq, hp, totalLen_append, totalLen_cons]
      dsimp only
      omega
    rw [if_pos (hfit _ rfl), if_pos (hfit _ htq)]
    rcases k2 with e | e
    · rw [e]; simp
    · rw [e]
      cases hdz : decode (List.replicate d.length 0) with
      | none => simp
      | some z =>
        have := hz _ _ hdz
        subst this
        dsimp only
        by_cases hc : (List.replicate d.length (0 : UInt8)).length = prod chunks * item
        · rw [if_pos hc]
          rw [List.length_replicate] at hc
          have hr := ravel_lt (withinOf_inBounds hcpos hxlen)
          have hr2 : ravel chunks (withinOf chunks x) * item + item ≤ d.length := by
            rw [hc, ← Nat.succ_mul]
            exact Nat.mul_le_mul_right _ hr
          rw [List.drop_replicate, List.take_replicate, Nat.min_eq_left (by omega)]
          simp
        · rw [if_neg hc]
          simp

section
variable {w : World} {env last : Env} {fuel : Nat} {s : Settings} {cfg : WConfig} {cfgs : List WConfig} {s0 : SState} {st : XStream}
  {rs : List Status} {tr : List Ev} {ok : Bool} {a y x : DimProps} {inner : List DimProps} {root : Text}
  {calls : List (Env × List Bytes)}

theorem level_oneLayer (h : Setup w fuel s cfg cfgs) (h3 : cfg.dims.FitsV3) (hone : cfg.dims.append.shardSize = 1) :
    ∀ c ∈ cfgs, c.dims.append.shardSize = 1 := by
  have hl := h.levels
  have hv := h.dimsValid
  unfold levelConfigs at hl
  split at hl
  · split at hl
    · simp at hl
    · simp at hl
    · simp at hl
    · rename_i rest hr
      simp only [Option.some.injEq, Res.ok.injEq] at hl
      subst hl
      intro c hc
      rcases List.mem_cons.1 hc with rfl | hc
      · exact hone
      · refine (pyramidFrom_all (P := fun D => D.FitsV3 ∧ D.append.shardSize = 1) ?_ hr hv h.fits ⟨h3, hone⟩ c hc).2
        intro D D' hv hf hp hd
        have h3' := fitsV3_down hv hf hp.1 hd
        have h1 := h3'.pos D'.append (by simp [ArrayDims.toList])
        have h2 := hd.append.shard_le (by rw [hp.2]; omega)
        exact ⟨h3', by rw [hp.2] at h2; omega⟩
  · simp only [Option.some.injEq, Res.ok.injEq] at hl
    subst hl
    intro c hc
    rw [List.mem_singleton.1 hc]
    exact hone

theorem created_oneLayer (h : Setup w fuel s cfg cfgs) (h3 : cfg.dims.FitsV3) (hV : s.version = 3) (hone : cfg.dims.append.shardSize = 1)
    (h0 : createStream w env fuel (some s) = some (.ok s0)) : AllOneLayer s0 := by
  obtain ⟨cfg', cfgs', hc⟩ := createStream_ok h0
  have e1 := hc.commit
  rw [h.commit] at e1
  cases e1
  have e2 := hc.levels
  rw [h.levels] at e2
  cases e2
  intro lv hl
  rw [hc.slevels] at hl
  obtain ⟨c, hm, rfl⟩ := List.mem_map.1 hl
  have h1 := level_oneLayer h h3 hone c hm
  have h2 := (h.base.levelFitsV3 h3 c hm).rollover
  rw [h1, Nat.mul_one] at h2
  exact .inr ⟨h.versionV3 hV c hm, h1, h2⟩

/-- The cut history of a version 3 session whose append calls return. -/
theorem cut_session_v3 (h : Setup w fuel s cfg cfgs) (h3 : cfg.dims.FitsV3) (hE : StorageOk (perfect env) s) (ho : SmallOverhead env)
    (hV : s.version = 3) (hone : cfg.dims.append.shardSize = 1)
    (hn : (calls.map (·.2)).flatten.length < 2 ^ 32) (hf : ∀ c ∈ calls, ∀ f ∈ c.2, f.length = cfg.dims.frameBytes)
    (hsame : ∀ c ∈ calls, c.1.compress = env.compress) (hlast : last.compress = env.compress)
    (h0 : createStream w env fuel (some s) = some (.ok s0))
    (hc : callsX (calls.map fun c => (c.1, c.2.flatten)) (XStream.of s0) = some (st, rs)) (hret : none ∉ rs)
    (hd : destroyX last st = some (tr, ok)) :
    ∃ st0 tr0, runStream w (perfect env) fuel s (calls.map fun c => c.2.flatten) =
        some (.ok (st0, calls.map (fun c => c.2.flatten.length), tr0)) ∧
      SessionV3 (perfect env) cfg cfgs (calls.map (·.2)).flatten tr0 ∧ Cut tr tr0 := by
  obtain ⟨t1, tr0, k1, k2, k3⟩ := session_v3 (env := perfect env) (calls := calls.map (·.2)) h h3 hE ho hV hn (by
    intro c hcm
    obtain ⟨c', hc', rfl⟩ := List.mem_map.1 hcm
    exact hf c' hc')
  rw [List.map_map, List.map_map] at k1
  refine ⟨t1, tr0, k1, k3, cut_run (created_oneLayer h h3 hV hone h0) ?_ hlast h0 hc hret hd (by rw [List.map_map]; exact k1)⟩
  intro c hcm
  obtain ⟨c', hc', rfl⟩ := List.mem_map.1 hcm
  exact hsame c' hc'

/-- What is left of a shard: nothing, or all chunks and the index with some chunks replaced by zeros, or only a part of the chunks
without the index. -/
def ShardLeft (D : ArrayDims) (F F0 : Option Bytes) : Prop :=
  F = none ∨ ∃ f f0 ps qs, F = some f ∧ F0 = some f0 ∧ f0 = ps.flatMap (·.2) ++ (tableOf D ps).flatMap u64le ∧ totalLen ps < 2 ^ 64 ∧
    LostParts ps qs ∧ ((f.length ≤ totalLen ps ∧ f <+: qs.flatMap (·.2)) ∨ f = qs.flatMap (·.2) ++ (tableOf D ps).flatMap u64le)

theorem cut_level_shard (h : Setup w fuel s cfg cfgs) (h3 : cfg.dims.FitsV3) (ho : SmallOverhead env) (hV : s.version = 3)
    (hone : cfg.dims.append.shardSize = 1) (hr : StoredAt s root) (hfr : Fresh w s root)
    {frames : List Bytes} {tr0 : List Ev} (hs : SessionV3 (perfect env) cfg cfgs frames tr0) (hcut : Cut tr tr0)
    {i : Nat} {c : WConfig} (hc : cfgs[i]? = some c) (g : Nat) (l : List Nat) :
    ShardLeft c.dims (fileInStore w cfg (levelDirV3 root i ++ chunkKey (g :: l)) tr)
      (fileInStore w cfg (levelDirV3 root i ++ chunkKey (g :: l)) tr0) := by
  have hm := List.mem_of_getElem? hc
  have hv := h.versionV3 hV c hm
  obtain ⟨hval, hfit⟩ := h.base.levelDims.1 c hm
  have h3c := h.base.levelFitsV3 h3 c hm
  have honec := level_oneLayer h h3 hone c hm
  have hobj : levelDirV3 root i ++ chunkKey (g :: l) = objectPath c g l := by
    rw [objectPath_keyV3 hv, levelDirV3_eq h hr hc]
  have howned : Owned c (levelDirV3 root i ++ chunkKey (g :: l)) := .inr ⟨g, l, hobj⟩
  have hab := hs.level i c hc _ howned
  have hcut := hcut.about (levelDirV3 root i ++ chunkKey (g :: l))
  rw [hab] at hcut
  rw [level_shard h hr hfr hs hV hc g l]
  have hfile : fileInStore w cfg (levelDirV3 root i ++ chunkKey (g :: l)) tr =
      fileAfter (levelDirV3 root i ++ chunkKey (g :: l)) (about (levelDirV3 root i ++ chunkKey (g :: l)) tr) := by
    have e : levelDirV3 root i ++ chunkKey (g :: l) = root ++ '/' :: (("data/root/".toList ++ decimal i ++ "/c".toList) ++
        chunkKey (g :: l)) := by
      unfold levelDirV3
      rw [List.append_assoc, List.cons_append]
    rw [← fileAfter_filter]
    rw [e]
    exact fileInStore_fresh h.commit hfr _ tr
  rw [hfile]
  generalize about (levelDirV3 root i ++ chunkKey (g :: l)) tr = xs at hcut
  rw [hobj] at hcut ⊢
  generalize (framesOfLevel cfg i frames).length = n at *
  generalize (framesOfLevel cfg i frames).flatten = S at *
  by_cases hin : InBounds (mShape c.dims.tailDims) l ∧ g < groups c n
  · have hp : objectPath c g l = shardPath c g (ravel (mShape c.dims.tailDims) l) := by
      unfold shardPath
      rw [unravel_ravel hin.1]
    have hi : ravel (mShape c.dims.tailDims) l < c.dims.shardCount := ravel_lt hin.1
    rw [hp] at hcut ⊢
    have hex := shard_about_exact (env := perfect env) hval hfit h3c S (n := n) (G := g) hi
    have hfa := fileAfter_shard (env := perfect env) hval hfit.toRoom h3c S (n := n) (G := g) hi
    have c1 : ¬ groups c n ≤ g * c.dims.append.shardSize := by rw [honec]; omega
    have c2 : (g + 1) * c.dims.append.shardSize ≤ groups c n ∨ n % c.dims.framesPerChunk ≠ 0 := by rw [honec]; left; omega
    rw [if_neg c1, if_pos c2] at hex hfa
    rw [hex] at hcut
    have htot := shardParts_total (env := perfect env) ho hval hfit.toRoom h3c S g (ravel (mShape c.dims.tailDims) l)
      (j := layersIn c n g) (Nat.min_le_left _ _)
    rw [hfa]
    unfold tableBytes at hcut
    rcases cut_shard hcut (by split <;> simp) (by
        intro hnil
        have := congrArg List.length hnil
        rw [tableBytes_length, tableOf_length] at this
        have hpos : 0 < c.dims.slotCount := prod_pos (by
          intro k hk
          obtain ⟨d, hd, rfl⟩ := List.mem_map.1 hk
          exact h3c.pos d hd)
        simp only [List.length_nil] at this
        omega) with q | ⟨f, qs, q1, q2, q3⟩
    · exact .inl q
    · exact .inr ⟨f, _, _, qs, q1, rfl, rfl, htot, q2, q3⟩
  · left
    have hnone : about (objectPath c g l) (runEventsV3 (perfect env) c S n) = [] := by
      apply about_none
      intro e he hpe
      rcases runEventsV3_path he with k | ⟨G, j, hj, k⟩
      · exact objectPath_ne_meta c g l (hpe.symm.trans k)
      · have k2 := hpe.symm.trans k
        obtain ⟨e1, e2⟩ := objectPath_inj k2
        have hlb : InBounds (mShape c.dims.tailDims) l := by rw [e2]; exact unravel_inBounds hj
        have hex := shard_about_exact (env := perfect env) hval hfit h3c S (n := n) (G := G) hj
        have c1 : groups c n ≤ G * c.dims.append.shardSize := by
          have hng : ¬ g < groups c n := fun hg => hin ⟨hlb, hg⟩
          rw [honec, Nat.mul_one, ← e1]
          omega
        rw [if_pos c1] at hex
        have : e ∈ about (shardPath c G j) (runEventsV3 (perfect env) c S n) := List.mem_filter.2 ⟨he, by simpa using k⟩
        rw [hex] at this
        cases this
    rw [hnone] at hcut
    obtain ⟨pre, hp, ht⟩ := hcut
    rw [List.prefix_nil] at hp
    subst hp
    cases ht
    rfl

/-- **C66, version 3, what holds.** One append chunk per shard, filesystem, any compression that works. Storage may fail in any way and
differently in every call; the append calls that were not refused returned; destroy may fail. Compared with the same session on perfect
storage, every shard file of every level is missing, or has the same length and index and, in every place, the same byte or zero, or has
lost its index (and is a beginning of such a file). A reader of the array gets, for every pixel of every appended frame: that pixel, or
the fill value, or an error, if the shard has not lost its index. Missing: shards without an index, where a reader takes pixels for an
index (`shard_without_index_violated`). -/
theorem failed_shards_partial (h : Setup w fuel s cfg cfgs) (h3 : cfg.dims.FitsV3) (hE : StorageOk (perfect env) s) (ho : SmallOverhead env)
    (hV : s.version = 3) (hdim : s.dimensions = some (a :: (inner ++ [y, x]))) (hone : a.shardSize = 1)
    (hr : StoredAt s root) (hfr : Fresh w s root)
    {decode : Bytes → Option Bytes} (hdec : Decodes (perfect env) s decode)
    (hz : ∀ n z, decode (List.replicate n 0) = some z → z = List.replicate n 0)
    (hn : (calls.map (·.2)).flatten.length < 2 ^ 32)
    (hf : ∀ c ∈ calls, ∀ f ∈ c.2, f.length = y.arraySize * x.arraySize * itemSize s.dataType)
    (hsame : ∀ c ∈ calls, c.1.compress = env.compress) (hlast : last.compress = env.compress)
    (h0 : createStream w env fuel (some s) = some (.ok s0))
    (hc : callsX (calls.map fun c => (c.1, c.2.flatten)) (XStream.of s0) = some (st, rs)) (hret : none ∉ rs)
    (hd : destroyX last st = some (tr, ok)) :
    ∃ st0 tr0, runStream w (perfect env) fuel s (calls.map fun c => c.2.flatten) =
        some (.ok (st0, calls.map (fun c => c.2.flatten.length), tr0)) ∧
      (∀ i c g l, cfgs[i]? = some c → fileInStore w cfg (levelDirV3 root i ++ chunkKey (g :: l)) tr = none ∨
        ∃ f f0 : Bytes, fileInStore w cfg (levelDirV3 root i ++ chunkKey (g :: l)) tr = some f ∧
          fileInStore w cfg (levelDirV3 root i ++ chunkKey (g :: l)) tr0 = some f0 ∧ NearBytes f f0 ∧
          (f.length + 16 * prod (kShape c.dims.toList) ≤ f0.length ∨
            (f.length = f0.length ∧ f.drop (f.length - 16 * prod (kShape c.dims.toList)) =
              f0.drop (f0.length - 16 * prod (kShape c.dims.toList))))) ∧
      ∀ (t : Nat) (i : List Nat) (py px : Nat) (f : Bytes), InBounds (inner.map (·.arraySize)) i →
        py < y.arraySize → px < x.arraySize →
        (calls.map (·.2)).flatten[t * prod (inner.map (·.arraySize)) + ravel (inner.map (·.arraySize)) i]? = some f →
        readV3 (fun p => fileInStore w cfg p tr) (levelDirV3 root 0) decode ((a :: (inner ++ [y, x])).map (·.chunkSize))
          ((a :: (inner ++ [y, x])).map (·.shardSize)) (itemSize s.dataType) (t :: (i ++ [py, px])) ∈
          [some (pixelOf f x.arraySize (itemSize s.dataType) py px), some (List.replicate (itemSize s.dataType) 0), none] ∨
        ∃ f' f0 : Bytes, fileInStore w cfg (levelDirV3 root 0 ++ chunkKey (gridOf ((a :: (inner ++ [y, x])).map (·.shardSize))
            (gridOf ((a :: (inner ++ [y, x])).map (·.chunkSize)) (t :: (i ++ [py, px]))))) tr = some f' ∧
          fileInStore w cfg (levelDirV3 root 0 ++ chunkKey (gridOf ((a :: (inner ++ [y, x])).map (·.shardSize))
            (gridOf ((a :: (inner ++ [y, x])).map (·.chunkSize)) (t :: (i ++ [py, px]))))) tr0 = some f0 ∧
          f'.length + 16 * prod ((a :: (inner ++ [y, x])).map (·.shardSize)) ≤ f0.length := by
  have hD := dimsOf h.valid h.commit hdim
  have hv := h.dimsValid
  obtain ⟨hK, hka⟩ := shards_of h.commit hdim
  obtain ⟨rest, hrest⟩ := levelConfigs_head h.levels
  have hc0 : cfgs[0]? = some cfg := by rw [hrest]; rfl
  have hf' : ∀ c ∈ calls, ∀ f ∈ c.2, f.length = cfg.dims.frameBytes := by rw [hD.frame]; exact hf
  have hone' : cfg.dims.append.shardSize = 1 := hka.trans hone
  obtain ⟨st0, tr0, k1, k2, k3⟩ := cut_session_v3 h h3 hE ho hV hone' hn hf' hsame hlast h0 hc hret hd
  have hleft : ∀ i c g l, cfgs[i]? = some c → _ := fun i c g l hi => cut_level_shard h h3 ho hV hone' hr hfr k2 k3 hi g l
  have tlen : ∀ (D : ArrayDims) (ps : List (Nat × Bytes)), ((tableOf D ps).flatMap u64le).length = 16 * D.slotCount := by
    intro D ps
    rw [tableBytes_length]
    simp only [tableOf, setParts_length, List.length_replicate]
    omega
  refine ⟨st0, tr0, k1, ?_, ?_⟩
  · intro i c g l hi
    rcases hleft i c g l hi with q | ⟨f, f0, ps, qs, q1, q2, rfl, q4, q5, q6⟩
    · exact .inl q
    · right
      refine ⟨f, _, q1, q2, ?_, ?_⟩
      · intro j b hj
        rcases q6 with ⟨_, q6⟩ | q6
        · have hj2 : (qs.flatMap (·.2))[j]? = some b := (List.prefix_iff_getElem?.1 q6 j (List.getElem?_eq_some_iff.1 hj).1).trans (by
            rw [← List.getElem?_eq_getElem]; exact hj)
          rcases q5.near j b hj2 with e | e
          · exact .inl e
          · right
            rw [List.getElem?_append_left (List.getElem?_eq_some_iff.1 e).1]
            exact e
        · subst q6
          have hl : (qs.flatMap (·.2)).length = (ps.flatMap (·.2)).length := by rw [totalLen_eq, totalLen_eq, q5.total]
          rw [List.getElem?_append] at hj ⊢
          rw [hl] at hj
          split at hj
          · rename_i hlt
            rw [if_pos hlt]
            exact q5.near j b hj
          · rename_i hlt
            rw [if_neg hlt]
            exact .inr hj
      · rcases q6 with ⟨q6, _⟩ | q6
        · left
          rw [List.length_append, totalLen_eq, tlen]
          unfold ArrayDims.slotCount
          omega
        · right
          subst q6
          have hl : (qs.flatMap (·.2)).length = (ps.flatMap (·.2)).length := by rw [totalLen_eq, totalLen_eq, q5.total]
          have tl := tlen c.dims ps
          unfold ArrayDims.slotCount at tl
          refine ⟨by rw [List.length_append, List.length_append, hl], ?_⟩
          rw [List.length_append, List.length_append, tl, Nat.add_sub_cancel, Nat.add_sub_cancel, List.drop_left, List.drop_left]
  · intro t i py px f hi hpy hpx hfm
    obtain ⟨st1, tr1, j1, _, j2⟩ := v3_pixels_read_back_partial (env := perfect env) (calls := calls.map (·.2)) h h3 hE ho hV hdim hr hfr hdec hn (by
      intro c hcm
      obtain ⟨c', hc', rfl⟩ := List.mem_map.1 hcm
      exact hf c' hc') hone
    rw [List.map_map, List.map_map] at j1
    have j1' : runStream w (perfect env) fuel s (calls.map fun c => c.2.flatten) =
        some (.ok (st1, calls.map (fun c => c.2.flatten.length), tr1)) := j1
    rw [k1] at j1'
    simp only [Option.some.injEq, Res.ok.injEq, Prod.mk.injEq] at j1'
    obtain ⟨rfl, _, rfl⟩ := j1'
    have hgood := j2 t i py px hi hpy hpx
    rw [hfm] at hgood
    dsimp only at hgood
    rw [← hgood]
    have hg : gridOf ((a :: (inner ++ [y, x])).map (·.shardSize)) (gridOf ((a :: (inner ++ [y, x])).map (·.chunkSize)) (t :: (i ++ [py, px]))) =
      t / a.chunkSize / a.shardSize :: gridOf ((inner ++ [y, x]).map (·.shardSize)) (gridOf ((inner ++ [y, x]).map (·.chunkSize)) (i ++ [py, px])) := rfl
    have hl0 := hleft 0 cfg (t / a.chunkSize / a.shardSize)
      (gridOf ((inner ++ [y, x]).map (·.shardSize)) (gridOf ((inner ++ [y, x]).map (·.chunkSize)) (i ++ [py, px]))) hc0
    rw [← hg] at hl0
    have hslot : cfg.dims.slotCount = prod ((a :: (inner ++ [y, x])).map (·.shardSize)) := by
      unfold ArrayDims.slotCount
      rw [hK]
    rcases hl0 with q | ⟨f1, f0, ps, qs, q1, q2, rfl, q4, q5, q6⟩
    · left
      unfold readV3
      dsimp only
      rw [q]
      simp
    · rcases q6 with ⟨q6, _⟩ | q6
      · right
        refine ⟨f1, _, q1, q2, ?_⟩
        rw [List.length_append, totalLen_eq, tlen, hslot]
        omega
      · left
        subst q6
        exact read_lost hz hslot (by
          intro k hk
          rw [← hK] at hk
          obtain ⟨d, hd, rfl⟩ := List.mem_map.1 hk
          exact h3.pos d hd) (by
          intro k hk
          rw [← hD.chunks] at hk
          obtain ⟨d, hd, rfl⟩ := List.mem_map.1 hk
          rcases List.mem_cons.1 hd with rfl | hd
          · exact hv.append_chunk
          · exact hv.tail_chunk d hd) (by
          have := hi.length
          simp only [List.length_map] at this
          simp [this]) (by
          have := hi.length
          simp only [List.length_map] at this
          rw [gridOf_len] <;> simp [this]) q4 q5 q2 q1

end

namespace Sample

/-- Version 3, rows of 32 one-byte pixels in two chunks, two frames per chunk, one shard. -/
def wide : Settings := { Sample.strip 3 32 2 with
  dimensions := some [⟨some "t".toList, 2, 0, 2, 1⟩, ⟨some "y".toList, 0, 1, 1, 1⟩, ⟨some "x".toList, 0, 32, 16, 2⟩] }

/-- A disk on which the index of the first shard is not written, and no document. -/
def noIndex : Env := { Sample.env with write := fun _ o d => if o = 64 then .failed else if 64 < d.length then .threw else .stored }

/-- A disk on which writing the index of the first shard throws. -/
def indexThrows : Env := { Sample.env with write := fun _ o _ => if o = 64 then .threw else .stored }

/-- A disk that does not take the second chunk. -/
def badSecond : Env := { Sample.env with write := fun _ _ d => if d = [7, 8] then .failed else .stored }

def strip3Cfg : WConfig := { Sample.cfg3 with
  storePath := "/tmp/a".toList
  dims := { append := ⟨"t", .time, 0, 2, 1⟩, inner := [], height := ⟨"y", .space, 1, 1, 1⟩, width := ⟨"x", .space, 2, 1, 2⟩, dtype := .u8 } }

/-- A row of pixels whose second half reads as the index entry (16, 32). -/
def row (v : UInt8) : Bytes := List.replicate 16 v ++ [16, 0, 0, 0, 0, 0, 0, 0, 32, 0, 0, 0, 0, 0, 0, 0]

end Sample
/-- **C66 (violated), version 3.** Two frames per chunk, two chunks per shard. The first call stores frame 0. In the second call the
index of the shard fails to be written and a document throws: the call reports the failure. The bytes of the last chunk stand where
a reader looks for the index: it finds an entry there and gets the pixel of frame 1 for frame 0, which was accepted without failure. -/
theorem shard_without_index_violated : ∃ s0 st rs tr ok,
    createStream Sample.world Sample.env 9 (some Sample.wide) = some (.ok s0) ∧
      callsX [(Sample.env, Sample.row 1), (Sample.noIndex, Sample.row 2)] (XStream.of s0) = some (st, rs) ∧
      destroyX Sample.env st = some (tr, ok) ∧ rs = [some 32, none] ∧ ok = true ∧
      readV3 (fun p => fileAfter p tr) "/tmp/a/data/root/0/c".toList some [2, 1, 16] [1, 1, 2] 1 [0, 0, 0] = some [2] ∧
      pixelOf (Sample.row 1) 32 1 0 0 = [1] := by
  obtain ⟨s0, st, rs, tr, ok, h0, h1, h2, h3⟩ := Sample.sessionX_spec (S := Sample.wide)
    (calls := [(Sample.env, Sample.row 1), (Sample.noIndex, Sample.row 2)]) (last := Sample.env)
    (P := fun (rs, ok, tr) => decide (rs = [some 32, none]) && ok &&
      decide (readV3 (fun p => fileAfter p tr) "/tmp/a/data/root/0/c".toList some [2, 1, 16] [1, 1, 2] 1 [0, 0, 0] = some [2]))
    (by decide +kernel)
  simp only [Bool.and_eq_true, decide_eq_true_eq] at h3
  exact ⟨s0, st, rs, tr, ok, h0, h1, h2, h3.1.1, h3.1.2, h3.2, by decide⟩

/-- The same without any report: writing the index throws after all chunks were written, so the job counts as successful. All calls and
destroy succeed, and a reader gets the pixel of frame 1 for frame 0. -/
theorem silent_without_index_violated : ∃ s0 st rs tr ok,
    createStream Sample.world Sample.env 9 (some Sample.wide) = some (.ok s0) ∧
      callsX [(Sample.env, Sample.row 1), (Sample.indexThrows, Sample.row 2)] (XStream.of s0) = some (st, rs) ∧
      destroyX Sample.env st = some (tr, ok) ∧ rs = [some 32, some 32] ∧ ok = true ∧
      readV3 (fun p => fileAfter p tr) "/tmp/a/data/root/0/c".toList some [2, 1, 16] [1, 1, 2] 1 [0, 0, 0] = some [2] ∧
      pixelOf (Sample.row 1) 32 1 0 0 = [1] := by
  obtain ⟨s0, st, rs, tr, ok, h0, h1, h2, h3⟩ := Sample.sessionX_spec (S := Sample.wide)
    (calls := [(Sample.env, Sample.row 1), (Sample.indexThrows, Sample.row 2)]) (last := Sample.env)
    (P := fun (rs, ok, tr) => decide (rs = [some 32, some 32]) && ok &&
      decide (readV3 (fun p => fileAfter p tr) "/tmp/a/data/root/0/c".toList some [2, 1, 16] [1, 1, 2] 1 [0, 0, 0] = some [2]))
    (by decide +kernel)
  simp only [Bool.and_eq_true, decide_eq_true_eq] at h3
  exact ⟨s0, st, rs, tr, ok, h0, h1, h2, h3.1.1, h3.1.2, h3.2, by decide⟩

/-- A session that meets the hypotheses of `failed_shards_partial`: the second chunk of the first shard is not written (so neither is
the index), and closing fails while the stream is destroyed; the calls return. -/
example : ∃ s0 st rs tr ok,
    createStream Sample.world Sample.env 9 (some (Sample.strip 3 2 2)) = some (.ok s0) ∧
      callsX ([(Sample.env, [[5, 7]]), (Sample.badSecond, [[6, 8]]), (Sample.env, [[9, 9]])].map fun c => (c.1, c.2.flatten)) (XStream.of s0) = some (st, rs) ∧
      none ∉ rs ∧ destroyX Sample.badClose st = some (tr, ok) ∧
      fileAfter "/tmp/a/data/root/0/c0/0/0".toList tr = some [5, 6] ∧ perfect Sample.badSecond = perfect Sample.env ∧
      perfect Sample.badClose = perfect Sample.env ∧ ok = false := by
  obtain ⟨s0, st, rs, tr, ok, h0, h1, h2, h3⟩ := Sample.sessionX_spec (S := Sample.strip 3 2 2)
    (calls := [(Sample.env, [[5, 7]]), (Sample.badSecond, [[6, 8]]), (Sample.env, [[9, 9]])].map fun c => (c.1, c.2.flatten)) (last := Sample.badClose)
    (P := fun (rs, ok, tr) => decide (none ∉ rs) && decide (fileAfter "/tmp/a/data/root/0/c0/0/0".toList tr = some [5, 6]) && !ok) (by decide +kernel)
  simp only [Bool.and_eq_true, decide_eq_true_eq, Bool.not_eq_true'] at h3
  exact ⟨s0, st, rs, tr, ok, h0, h1, h3.1.1, h2, h3.1.2, rfl, rfl, h3.2⟩

/-- The settings of that example meet its other hypotheses. -/
example : Setup Sample.world 9 (Sample.strip 3 2 2) Sample.strip3Cfg [Sample.strip3Cfg] ∧ Sample.strip3Cfg.dims.FitsV3 ∧
    StorageOk (perfect Sample.env) (Sample.strip 3 2 2) ∧ SmallOverhead Sample.env ∧ StoredAt (Sample.strip 3 2 2) "/tmp/a".toList ∧
    Fresh Sample.world (Sample.strip 3 2 2) "/tmp/a".toList :=
  ⟨⟨rfl, rfl, rfl, rfl, by decide, fun h => by cases h⟩, by decide, Sample.storageOk, Sample.overhead, ⟨rfl, _, rfl, .inr (by decide)⟩,
    .inl ⟨_, rfl, by decide⟩⟩

end AZ
