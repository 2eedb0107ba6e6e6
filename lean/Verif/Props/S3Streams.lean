import Verif.Lemmas.S3Store
import Verif.Props.ReadBackV3
import Verif.Props.Shards
import Verif.Lemmas.DocPaths
import Verif.Props.Crash

set_option linter.unusedSimpArgs false

/-!
# C32: closing an S3 stream uploads everything

A session creates an S3 stream, appends whole frames and destroys the stream; the server confirms every request.
`bucketAfter` is the object of a given name afterwards. For Zarr V2 every chunk object is uploaded and reads back. For
Zarr V3 a shard is uploaded exactly if it is full: the last shards of a stream that ends inside a shard are lost.
-/

namespace AZ
open Spec S3

/-- The stream goes to a bucket, under the key prefix `root`. -/
def InBucket (s : Settings) (root : Text) : Prop := s.s3.isSome ∧ ∃ p, s.storePath = some p ∧ trim p = root

theorem InBucket.located {s : Settings} {root : Text} (h : InBucket s root) : LocatedAt s root := .inr h

/-- Object `p` of the bucket (and the state of its sink) after the events `tr`: `P` is the part size, `srv` the server's
replies to the requests about each object, `old` the bucket before. -/
def bucketAfter (P : Nat) (srv : Text → Nat → Reply) (junk : Bytes) (old : Text → Option Bytes) (tr : List Ev) (p : Text) :
    Obj := objAfter P (srv p) junk (old p) p tr

/-- The compressor never returns an empty buffer for a chunk of the stream (Blosc does for chunks over 2 GiB). -/
def NonemptyOutput (env : Env) (s : Settings) : Prop :=
  ∀ q n b out, b.length ≤ fullChunk s → env.compress q n b = some out → out ≠ []

theorem storedForm_ne {env : Env} {w : World} {fuel : Nat} {s : Settings} {cfg : WConfig} {cfgs : List WConfig}
    (hE : NonemptyOutput env s) (hok : StorageOk env s) (h : Setup w fuel s cfg cfgs) {c : WConfig} (hc : c ∈ cfgs)
    {b : Bytes} (hl : b.length = c.dims.chunkBytes) (hb : b ≠ []) : storedForm env c b ≠ [] := by
  unfold storedForm
  cases hq : c.compression with
  | none => exact hb
  | some q =>
    have := hok.compressed h hc hq c.dims.dtype.bytes b
    dsimp only
    cases ho : env.compress q c.dims.dtype.bytes b with
    | none => rw [ho] at this; cases this
    | some out => exact hE _ _ _ _ (by rw [hl]; exact h.chunk_le hc) ho

section
variable {w : World} {env : Env} {fuel : Nat} {s : Settings} {cfg : WConfig} {cfgs : List WConfig}
  {a y x : DimProps} {inner : List DimProps} {root : Text} {calls : List (List Bytes)}

theorem levelDir_located {c : WConfig} (h : Setup w fuel s cfg cfgs) (hr : LocatedAt s root) {i : Nat}
    (hc : cfgs[i]? = some c) : arrayDirV2 c = levelDir root i := by
  obtain ⟨h1, h2⟩ := levelConfigs_inherits h.levels hc
  unfold arrayDirV2 levelDir
  rw [hr.base h.commit h1.same, h2, (commit_fields h.commit).1, Nat.zero_add]
  simp

theorem levelDirV3_located {c : WConfig} (h : Setup w fuel s cfg cfgs) (hr : LocatedAt s root) {i : Nat}
    (hc : cfgs[i]? = some c) : arrayDirV3 c = levelDirV3 root i := by
  obtain ⟨h1, h2⟩ := levelConfigs_inherits h.levels hc
  unfold arrayDirV3 levelDirV3
  rw [hr.base h.commit h1.same, h2, (commit_fields h.commit).1, Nat.zero_add, List.append_assoc, List.singleton_append]

/-! ### Zarr V2 -/

/-- The chunk objects of any level after a V2 session: every chunk with data is uploaded, in its stored form, nothing
else is touched, and no sink reports a failure. -/
theorem s3_level_chunk (h : Setup w fuel s cfg cfgs) (hr : InBucket s root) (hE : StorageOk env s) (hne : NonemptyOutput env s)
    (ho : SmallOverhead env) (hV : s.version = 2) {frames : List Bytes} {tr : List Ev} (hs : SessionV2 env cfg cfgs frames tr)
    {P : Nat} (hP : 0 < P) (hsz : cfg.dims.chunkBytes + 16 ≤ P * (2 ^ 32 - 1))
    {srv : Text → Nat → Reply} (hsrv : ∀ p, Spec.Healthy (srv p)) {junk : Bytes} (hj : junk.length = P)
    (old : Text → Option Bytes) {i : Nat} {c : WConfig} (hc : cfgs[i]? = some c) (g : Nat) (l : List Nat) :
    bucketAfter P srv junk old tr (levelDir root i ++ chunkKey (g :: l)) =
      ⟨none, if g < groups c (framesOfLevel cfg i frames).length ∧ InBounds (nShape c.dims.tailDims) l then
        some (storedForm env c (Spec.chunkBytes (aShape c.dims.tailDims) (cShape c.dims.toList)
          c.dims.dtype.bytes (framesOfLevel cfg i frames).flatten (g :: l)))
        else old (levelDir root i ++ chunkKey (g :: l)), true⟩ := by
  have hv := h.versionV2 hV c (List.mem_of_getElem? hc)
  obtain ⟨hval, hfit⟩ := h.levelDims.1 c (List.mem_of_getElem? hc)
  have hbytes := h.levelAll (Q := fun D => D.chunkBytes + 16 ≤ P * (2 ^ 32 - 1))
    (fun D D' _ _ hq hd => by have := chunkBytes_down hd; omega) hsz c (List.mem_of_getElem? hc)
  rw [← levelDir_located h hr.located hc, ← objectPath_key hv]
  have hown : Owned c (objectPath c g l) := .inr ⟨g, l, rfl⟩
  unfold bucketAfter
  rw [objAfter_about (hs.level i c hc _ hown)]
  split
  · rename_i hin
    have hp : objectPath c g l = chunkPath c g (ravel (nShape c.dims.tailDims) l) := by
      unfold chunkPath
      rw [unravel_ravel hin.2]
    rw [objAfter_filter, hp]
    unfold about
    rw [filter_run_chunk env hval hfit _ hin.1 (ravel_lt hin.2), unravel_ravel hin.2]
    generalize hb : Spec.chunkBytes (aShape c.dims.tailDims) (cShape c.dims.toList) c.dims.dtype.bytes
      (framesOfLevel cfg i frames).flatten (g :: l) = b
    have hbl : b.length = c.dims.chunkBytes := by rw [← hb]; simp [Spec.chunkBytes, ArrayDims.chunkBytes]
    have hpos : b ≠ [] := by
      intro h0
      rw [h0] at hbl
      have := ArrayDims.chunkBytes_pos hval
      simp at hbl
      omega
    have hl := storedForm_length ho c b
    generalize chunkPath c g (ravel (nShape c.dims.tailDims) l) = p
    have hd := storedForm_ne hne hE h (List.mem_of_getElem? hc) hbl hpos
    generalize storedForm env c b = d at *
    have k := objAfter_blocks hP (hsrv p) hj (old := old p) (p := p) (ds := [d]) (by simpa using hd)
      (by simp only [List.flatten_cons, List.flatten_nil, List.append_nil]; omega)
    simp only [List.flatten_cons, List.flatten_nil, List.append_nil] at k
    exact k
  · rename_i hin
    rw [objAfter_filter]
    unfold about
    have hnil : (runEventsV2 env c (framesOfLevel cfg i frames).flatten (framesOfLevel cfg i frames).length).filter
        (fun e => e.path = objectPath c g l) = [] := by
      exact run_about_none env hval hfit _ _ (objectPath_ne_meta _ _ _) fun g' k hg hk he => by
        obtain ⟨e1, e2⟩ := objectPath_inj he
        apply hin
        rw [e1, e2]
        exact ⟨hg, unravel_inBounds hk⟩
    rw [hnil]
    rfl

theorem setup_chunkBytes (h : Setup w fuel s cfg cfgs) (hd : s.dimensions = some (a :: (inner ++ [y, x]))) :
    cfg.dims.chunkBytes = prod ((a :: (inner ++ [y, x])).map (·.chunkSize)) * itemSize s.dataType := by
  have hD := dimsOf h.valid h.commit hd
  unfold ArrayDims.chunkBytes
  rw [hD.chunks, hD.item]

/-- **C32** for Zarr V2: after a session of whole frames on an S3 stream, under every chunk name of every level the
bucket holds exactly what a filesystem store would hold, all sinks succeeded, and every element of the level-0 array reads
back from the bucket: the pixel of the frame appended for it, zeros if there is none. (`old` is the bucket before; for the
last part it has no chunk objects of this array.) Chunks must be non-empty and fit in `2^32 - 1` parts. -/
theorem s3_v2_uploaded (h : Setup w fuel s cfg cfgs) (hr : InBucket s root) (hE : StorageOk env s) (hne : NonemptyOutput env s)
    (ho : SmallOverhead env) (hV : s.version = 2)
    (hd : s.dimensions = some (a :: (inner ++ [y, x]))) {decode : Bytes → Option Bytes} (hdec : Decodes env s decode)
    (hn : calls.flatten.length < 2 ^ 32)
    (hf : ∀ c ∈ calls, ∀ f ∈ c, f.length = y.arraySize * x.arraySize * itemSize s.dataType)
    {P : Nat} (hP : 0 < P)
    (hsz : prod ((a :: (inner ++ [y, x])).map (·.chunkSize)) * itemSize s.dataType + 16 ≤ P * (2 ^ 32 - 1))
    {srv : Text → Nat → Reply} (hsrv : ∀ p, Spec.Healthy (srv p)) {junk : Bytes} (hj : junk.length = P)
    (old : Text → Option Bytes) :
    ∃ st tr, runStream w env fuel s (calls.map List.flatten) =
        some (.ok (st, calls.map (fun c => c.flatten.length), tr)) ∧ st.error = [] ∧
      (∀ i < cfgs.length, ∀ (g : Nat) (l : List Nat),
        bucketAfter P srv junk old tr (levelDir root i ++ chunkKey (g :: l)) =
          ⟨none, (fileAfter (levelDir root i ++ chunkKey (g :: l)) tr).or (old (levelDir root i ++ chunkKey (g :: l))), true⟩) ∧
      ((∀ g l, old (levelDir root 0 ++ chunkKey (g :: l)) = none) →
        ∀ (t : Nat) (i : List Nat) (py px : Nat), InBounds (inner.map (·.arraySize)) i → py < y.arraySize →
          px < x.arraySize →
          readV2 (fun p => (bucketAfter P srv junk old tr p).object) (levelDir root 0) decode
            ((a :: (inner ++ [y, x])).map (·.chunkSize)) (itemSize s.dataType) (t :: (i ++ [py, px])) =
          some (match calls.flatten[t * prod (inner.map (·.arraySize)) + ravel (inner.map (·.arraySize)) i]? with
            | some f => pixelOf f x.arraySize (itemSize s.dataType) py px
            | none => List.replicate (itemSize s.dataType) 0)) := by
  have hD := dimsOf h.valid h.commit hd
  rw [← hD.frame] at hf
  rw [← setup_chunkBytes h hd] at hsz
  obtain ⟨st, tr, h1, h2, h3⟩ := session_v2 h hE hV hn hf
  obtain ⟨rest, hrest⟩ := levelConfigs_head h.levels
  have h0 : cfgs[0]? = some cfg := by rw [hrest]; rfl
  have key : ∀ (i : Nat) (c : WConfig), cfgs[i]? = some c → ∀ (g : Nat) (l : List Nat),
      bucketAfter P srv junk old tr (levelDir root i ++ chunkKey (g :: l)) =
        ⟨none, (fileAfter (levelDir root i ++ chunkKey (g :: l))
          (runEventsV2 env c (framesOfLevel cfg i calls.flatten).flatten (framesOfLevel cfg i calls.flatten).length)).or
          (old (levelDir root i ++ chunkKey (g :: l))), true⟩ := by
    intro i c hc g l
    have hv := h.versionV2 hV c (List.mem_of_getElem? hc)
    obtain ⟨hval, hfit⟩ := h.levelDims.1 c (List.mem_of_getElem? hc)
    rw [s3_level_chunk h hr hE hne ho hV h3 hP hsz hsrv hj old hc]
    congr 1
    rw [← levelDir_located h hr.located hc, ← objectPath_key hv]
    split
    · rename_i hin
      have hp : objectPath c g l = chunkPath c g (ravel (nShape c.dims.tailDims) l) := by
        unfold chunkPath
        rw [unravel_ravel hin.2]
      rw [hp, fileAfter_chunk_v2 env hval hfit _ hin.1 (ravel_lt hin.2), unravel_ravel hin.2]
      rfl
    · rename_i hin
      rw [fileAfter_none_v2 env hval hfit _ _ (objectPath_ne_meta _ _ _), Option.none_or]
      intro g' k hg hk he
      obtain ⟨e1, e2⟩ := objectPath_inj he
      apply hin
      rw [e1, e2]
      exact ⟨hg, unravel_inBounds hk⟩
  refine ⟨st, tr, h1, h2, ?_, ?_⟩
  · intro i hi g l
    have hc := List.getElem?_eq_getElem hi
    rw [key i _ hc]
    congr 2
    have hv := h.versionV2 hV _ (List.mem_of_getElem? hc)
    symm
    apply fileAfter_about
    apply h3.level i _ hc
    exact .inr ⟨g, l, by rw [objectPath_key hv, levelDir_located h hr.located hc]⟩
  · intro hold t i py px hi hpy hpx
    refine v2_read_from h hE hV hd hdec (h3.sizes 0 cfg h0) (levelDir_located h hr.located h0) ?_ hi hpy hpx
    intro g l
    rw [key 0 cfg h0, hold]
    exact Option.or_none

/-! ### Zarr V3 -/

theorem totalLen_flatten (ps : List (Nat × Bytes)) : (ps.map Prod.snd).flatten.length = totalLen ps := by
  induction ps with
  | nil => rfl
  | cons p ps ih => rw [List.map_cons, List.flatten_cons, List.length_append, totalLen_cons, ih]

theorem shardParts_bytes (ho : SmallOverhead env) (hv : cfg.dims.Valid) (hf : cfg.dims.Fits)
    (h3 : cfg.dims.FitsV3) (S : Bytes) (G i : Nat) {j : Nat} (hj : j ≤ cfg.dims.append.shardSize) :
    totalLen (shardParts env cfg S G j i) ≤ prod (kShape cfg.dims.toList) * (cfg.dims.chunkBytes + 16) := by
  have h1 := totalLen_le (ps := shardParts env cfg S G j i) (m := cfg.dims.chunkBytes + 16) (by
    intro x hx
    obtain ⟨q, _, hq⟩ := List.mem_flatMap.1 hx
    exact mem_partsOf_length ho hq)
  have h2 := shardParts_length (env := env) hv hf h3 S G j i
  have h4 : j * prod (kShape cfg.dims.tailDims) ≤ cfg.dims.slotCount := Nat.mul_le_mul_right _ hj
  exact le_trans h1 (Nat.mul_le_mul_right _ (Nat.le_trans h2 h4))

theorem tableBytes_size (env : Env) (cfg : WConfig) (S : Bytes) (G j i : Nat) :
    (tableBytes env cfg S G j i).length = 16 * cfg.dims.slotCount := by
  unfold tableBytes tableOf
  have : ∀ xs : List Nat, (xs.flatMap u64le).length = 8 * xs.length := by
    intro xs
    induction xs with
    | nil => rfl
    | cons x xs ih => rw [List.flatMap_cons, List.length_append, ih, List.length_cons]; simp [u64le]; omega
  rw [this, setParts_length, List.length_replicate]
  omega

/-- The shard objects of any level after a V3 session: a shard is uploaded exactly if it is full, and then has the
contents it would have in a filesystem store; otherwise the bucket keeps what was there before. No sink reports a
failure. -/
theorem s3_level_shard (h : Setup w fuel s cfg cfgs) (h3 : cfg.dims.FitsV3) (hr : InBucket s root)
    (ho : SmallOverhead env) (hV : s.version = 3) {frames : List Bytes} {tr : List Ev} (hs : SessionV3 env cfg cfgs frames tr)
    {P : Nat} (hP : 0 < P) (hsz : prod (kShape cfg.dims.toList) * (cfg.dims.chunkBytes + 32) ≤ P * (2 ^ 32 - 1))
    {srv : Text → Nat → Reply} (hsrv : ∀ p, Spec.Healthy (srv p)) {junk : Bytes} (hj : junk.length = P)
    (old : Text → Option Bytes) {i : Nat} {c : WConfig} (hc : cfgs[i]? = some c) (G : Nat) (l : List Nat) :
    bucketAfter P srv junk old tr (levelDirV3 root i ++ chunkKey (G :: l)) =
      ⟨none, if (G + 1) * c.dims.append.shardSize * c.dims.framesPerChunk ≤ (framesOfLevel cfg i frames).length ∧
          InBounds (mShape c.dims.tailDims) l then
        fileAfter (levelDirV3 root i ++ chunkKey (G :: l))
          (runEventsV3 env c (framesOfLevel cfg i frames).flatten (framesOfLevel cfg i frames).length)
        else old (levelDirV3 root i ++ chunkKey (G :: l)), true⟩ := by
  have hmem := List.mem_of_getElem? hc
  have hv := h.versionV3 hV c hmem
  obtain ⟨hval, hfit⟩ := h.levelDims.1 c hmem
  have hf3 := h.levelFitsV3 h3 c hmem
  have hbytes := (h.levelAll (Q := fun D => D.FitsV3 ∧ prod (kShape D.toList) * (D.chunkBytes + 32) ≤ P * (2 ^ 32 - 1))
    (fun D D' hv hf hq hd => ⟨fitsV3_down hv hf hq.1 hd, by
      have e1 := chunkBytes_down hd
      have e2 := slots_down hq.1 hd
      exact le_trans (Nat.mul_le_mul e2 (by omega)) hq.2⟩) ⟨h3, hsz⟩ c hmem).2
  rw [← levelDirV3_located h hr.located hc, ← objectPath_keyV3 hv]
  unfold bucketAfter
  rw [objAfter_about (hs.level i c hc _ (.inr ⟨G, l, rfl⟩))]
  generalize framesOfLevel cfg i frames = fr at *
  by_cases hin : InBounds (mShape c.dims.tailDims) l
  · have hp : objectPath c G l = shardPath c G (ravel (mShape c.dims.tailDims) l) := by
      unfold shardPath
      rw [unravel_ravel hin]
    have hi : ravel (mShape c.dims.tailDims) l < c.dims.shardCount := ravel_lt hin
    rw [hp]
    generalize ravel (mShape c.dims.tailDims) l = k at *
    rw [objAfter_filter, shard_about_exact hval hfit hf3 _ hi, fileAfter_shard hval hfit hf3 _ hi]
    have hslots : c.dims.slotCount = prod (kShape c.dims.toList) := rfl
    have hkk : prod (kShape c.dims.toList) = c.dims.append.shardSize * prod (kShape c.dims.tailDims) := rfl
    have hkpos : 0 < prod (kShape c.dims.toList) := by
      apply prod_pos
      intro d hd
      obtain ⟨q, hq, rfl⟩ := List.mem_map.1 hd
      exact hf3.pos q hq
    have hFB := ArrayDims.framesPerChunk_pos hval hfit
    have hml : ∀ G, (G + 1) * c.dims.append.shardSize * c.dims.framesPerChunk ≤ fr.length ↔
      (G + 1) * c.dims.append.shardSize ≤ fr.length / c.dims.framesPerChunk := fun G => (Nat.le_div_iff_mul_le hFB).symm
    have hge : fr.length / c.dims.framesPerChunk ≤ groups c fr.length := by
      unfold groups ceilDiv
      exact Nat.div_le_div_right (by omega)
    have hSpos : 0 < c.dims.append.shardSize := hf3.pos c.dims.append (by simp [ArrayDims.toList])
    have hG1 : (G + 1) * c.dims.append.shardSize = G * c.dims.append.shardSize + c.dims.append.shardSize := by
      rw [Nat.add_mul, Nat.one_mul]
    by_cases hnone : groups c fr.length ≤ G * c.dims.append.shardSize
    · rw [if_pos hnone, if_neg]
      · rfl
      · rintro ⟨hfull, _⟩
        rw [hml] at hfull
        omega
    · rw [if_neg hnone, if_neg hnone]
      have hj' : layersIn c fr.length G ≤ c.dims.append.shardSize := by
        unfold layersIn
        exact Nat.min_le_left _ _
      have htot := shardParts_bytes ho hval hfit hf3 fr.flatten G k hj'
      have htab := tableBytes_size env c fr.flatten G (layersIn c fr.length G) k
      rw [writesAt_eq]
      have hbound : totalLen (shardParts env c fr.flatten G (layersIn c fr.length G) k) +
          (tableBytes env c fr.flatten G (layersIn c fr.length G) k).length ≤ P * (2 ^ 32 - 1) := by
        rw [htab, hslots]
        refine le_trans ?_ hbytes
        rw [show c.dims.chunkBytes + 32 = (c.dims.chunkBytes + 16) + 16 from by omega, Nat.mul_add, Nat.mul_comm 16]
        exact Nat.add_le_add_right htot _
      have htne : tableBytes env c fr.flatten G (layersIn c fr.length G) k ≠ [] := by
        intro h0
        rw [h0, hslots] at htab
        simp at htab
        omega
      have hft := totalLen_flatten (shardParts env c fr.flatten G (layersIn c fr.length G) k)
      have hfm : (shardParts env c fr.flatten G (layersIn c fr.length G) k).flatMap (·.2) =
        ((shardParts env c fr.flatten G (layersIn c fr.length G) k).map Prod.snd).flatten := by
        rw [List.flatMap_def]
      rw [hfm]
      have htb : (tableOf c.dims (shardParts env c fr.flatten G (layersIn c fr.length G) k)).flatMap u64le =
        tableBytes env c fr.flatten G (layersIn c fr.length G) k := rfl
      rw [htb]
      rw [← hft] at hbound ⊢
      generalize (shardParts env c fr.flatten G (layersIn c fr.length G) k).map Prod.snd = ds at *
      generalize tableBytes env c fr.flatten G (layersIn c fr.length G) k = tb at *
      generalize shardPath c G k = p at *
      have hcons : wrotes p (consecutive 0 ds) ++ [Ev.wrote p ds.flatten.length tb] = wrotes p (consecutive 0 (ds ++ [tb])) := by
        rw [consecutive_append]
        simp [wrotes, consecutive]
      by_cases hfull : (G + 1) * c.dims.append.shardSize * c.dims.framesPerChunk ≤ fr.length
      · have hfull' := (hml G).1 hfull
        rw [if_pos (.inl (by omega)), if_pos hfull, if_pos ⟨hfull, hin⟩, if_pos (.inl (by omega)), ← List.append_assoc,
          hcons, objAfter_blocks hP (hsrv p) hj]
        · simp
        · simp [htne]
        · simpa using hbound
      · have hno : ¬ ((G + 1) * c.dims.append.shardSize * c.dims.framesPerChunk ≤ fr.length ∧
          InBounds (mShape c.dims.tailDims) l) := fun h => hfull h.1
        rw [if_neg hfull, if_neg hno]
        by_cases hw : (G + 1) * c.dims.append.shardSize ≤ groups c fr.length ∨ fr.length % c.dims.framesPerChunk ≠ 0
        · rw [if_pos hw, ← List.append_assoc, hcons, objAfter_blocks_dropped hP (hsrv p) hj]
          simpa using hbound
        · rw [if_neg hw, List.nil_append, objAfter_blocks_dropped hP (hsrv p) hj]
          exact le_trans (Nat.le_add_right _ _) hbound
  · rw [if_neg (fun h => hin h.2), objAfter_filter, about_none]
    · rfl
    · intro e he hpe
      rcases runEventsV3_path he with h | ⟨G', k, hk, h⟩
      · rw [hpe] at h
        exact objectPath_ne_meta c G l h
      · rw [hpe] at h
        unfold shardPath at h
        obtain ⟨e1, e2⟩ := objectPath_inj h
        apply hin
        rw [e2]
        exact unravel_inBounds hk

/-- Frames stored in one append shard: the stream has a complete set of shards only after a multiple of this. -/
def framesPerShard (a : DimProps) (inner : List DimProps) : Nat := framesPer a inner * a.shardSize

/-- Size bound on shards used below. -/
def ShardsFit (s : Settings) (ds : List DimProps) (P : Nat) : Prop :=
  prod (ds.map (·.shardSize)) * (prod (ds.map (·.chunkSize)) * itemSize s.dataType + 32) ≤ P * (2 ^ 32 - 1)

/-- The shards of the level-0 array after a V3 session on S3: shard `G :: l` of the shard grid is in the bucket, with
the contents it would have in a filesystem store, exactly if all its frames have been appended. Otherwise the bucket
keeps what was there before. -/
theorem s3_v3_exact (h : Setup w fuel s cfg cfgs) (h3 : cfg.dims.FitsV3) (hr : InBucket s root) (hE : StorageOk env s)
    (ho : SmallOverhead env) (hV : s.version = 3) (hd : s.dimensions = some (a :: (inner ++ [y, x])))
    (hn : calls.flatten.length < 2 ^ 32)
    (hf : ∀ c ∈ calls, ∀ f ∈ c, f.length = y.arraySize * x.arraySize * itemSize s.dataType)
    {P : Nat} (hP : 0 < P) (hsz : ShardsFit s (a :: (inner ++ [y, x])) P)
    {srv : Text → Nat → Reply} (hsrv : ∀ p, Spec.Healthy (srv p)) {junk : Bytes} (hj : junk.length = P)
    (old : Text → Option Bytes) :
    ∃ st tr, runStream w env fuel s (calls.map List.flatten) =
        some (.ok (st, calls.map (fun c => c.flatten.length), tr)) ∧ st.error = [] ∧
      SessionV3 env cfg cfgs calls.flatten tr ∧
      ∀ (G : Nat) (l : List Nat),
        bucketAfter P srv junk old tr (levelDirV3 root 0 ++ chunkKey (G :: l)) =
          ⟨none, if (G + 1) * framesPerShard a inner ≤ calls.flatten.length ∧ InBounds (shardGrid (inner ++ [y, x])) l then
            fileAfter (levelDirV3 root 0 ++ chunkKey (G :: l)) tr
            else old (levelDirV3 root 0 ++ chunkKey (G :: l)), true⟩ := by
  have hD := dimsOf h.valid h.commit hd
  obtain ⟨hK, hka⟩ := shards_of h.commit hd
  rw [← hD.frame] at hf
  obtain ⟨st, tr, h1, h2, hs⟩ := session_v3 h h3 hE ho hV hn hf
  obtain ⟨rest, hrest⟩ := levelConfigs_head h.levels
  have h0 : cfgs[0]? = some cfg := by rw [hrest]; rfl
  refine ⟨st, tr, h1, h2, hs, fun G l => ?_⟩
  have hv := h.versionV3 hV cfg (List.mem_of_getElem? h0)
  rw [s3_level_shard h h3 hr ho hV hs hP (by
    unfold ShardsFit at hsz
    rw [hK, setup_chunkBytes h hd]
    exact hsz) hsrv hj old h0]
  have ha : about (levelDirV3 root 0 ++ chunkKey (G :: l)) tr = about (levelDirV3 root 0 ++ chunkKey (G :: l))
      (runEventsV3 env cfg calls.flatten.flatten calls.flatten.length) := by
    apply hs.level 0 cfg h0
    exact .inr ⟨G, l, by rw [objectPath_keyV3 hv, levelDirV3_located h hr.located h0]⟩
  rw [framesOfLevel_zero, ← fileAfter_about ha, (grids_of h.commit hd).2.1, hD.perChunk, hka]
  have e : (G + 1) * a.shardSize * (a.chunkSize * prod (inner.map (·.arraySize))) = (G + 1) * framesPerShard a inner := by
    unfold framesPerShard framesPer
    ring
  rw [e]

/-- **C32** for Zarr V3, the part that holds: if the number of appended frames is a multiple of the frames per append
shard, every shard object is in the bucket exactly as in a filesystem store, and (with one append chunk per shard, cf. C04)
every element reads back from the bucket. Missing: every other number of frames, for which the property is false
(`s3_v3_last_shard_lost`). -/
theorem s3_v3_uploaded_partial (h : Setup w fuel s cfg cfgs) (h3 : cfg.dims.FitsV3) (hr : InBucket s root) (hE : StorageOk env s)
    (ho : SmallOverhead env) (hV : s.version = 3) (hd : s.dimensions = some (a :: (inner ++ [y, x])))
    {decode : Bytes → Option Bytes} (hdec : Decodes env s decode)
    (hn : calls.flatten.length < 2 ^ 32)
    (hf : ∀ c ∈ calls, ∀ f ∈ c, f.length = y.arraySize * x.arraySize * itemSize s.dataType)
    {P : Nat} (hP : 0 < P) (hsz : ShardsFit s (a :: (inner ++ [y, x])) P)
    {srv : Text → Nat → Reply} (hsrv : ∀ p, Spec.Healthy (srv p)) {junk : Bytes} (hj : junk.length = P)
    (old : Text → Option Bytes) (hfull : calls.flatten.length % framesPerShard a inner = 0) :
    ∃ st tr, runStream w env fuel s (calls.map List.flatten) =
        some (.ok (st, calls.map (fun c => c.flatten.length), tr)) ∧ st.error = [] ∧
      (∀ (G : Nat) (l : List Nat), bucketAfter P srv junk old tr (levelDirV3 root 0 ++ chunkKey (G :: l)) =
          ⟨none, (fileAfter (levelDirV3 root 0 ++ chunkKey (G :: l)) tr).or
            (old (levelDirV3 root 0 ++ chunkKey (G :: l))), true⟩) ∧
      (a.shardSize = 1 → (∀ G l, old (levelDirV3 root 0 ++ chunkKey (G :: l)) = none) →
        ∀ (t : Nat) (i : List Nat) (py px : Nat), InBounds (inner.map (·.arraySize)) i → py < y.arraySize →
          px < x.arraySize →
          readV3 (fun p => (bucketAfter P srv junk old tr p).object) (levelDirV3 root 0) decode
            ((a :: (inner ++ [y, x])).map (·.chunkSize)) ((a :: (inner ++ [y, x])).map (·.shardSize))
            (itemSize s.dataType) (t :: (i ++ [py, px])) =
          some (match calls.flatten[t * prod (inner.map (·.arraySize)) + ravel (inner.map (·.arraySize)) i]? with
            | some f => pixelOf f x.arraySize (itemSize s.dataType) py px
            | none => List.replicate (itemSize s.dataType) 0)) := by
  have hD := dimsOf h.valid h.commit hd
  obtain ⟨hK, hka⟩ := shards_of h.commit hd
  obtain ⟨st, tr, h1, h2, hs, hb⟩ := s3_v3_exact h h3 hr hE ho hV hd hn hf hP hsz hsrv hj old
  obtain ⟨rest, hrest⟩ := levelConfigs_head h.levels
  have h0 : cfgs[0]? = some cfg := by rw [hrest]; rfl
  have hmem := List.mem_of_getElem? h0
  have hv := h.versionV3 hV cfg hmem
  obtain ⟨hval, hfit⟩ := h.levelDims.1 cfg hmem
  have hFB := ArrayDims.framesPerChunk_pos hval hfit
  have hSpos : 0 < a.shardSize := by
    rw [← hka]; exact h3.pos cfg.dims.append (by simp [ArrayDims.toList])
  have hgr : ∀ m, groups cfg m = chunksFor a inner m := by
    intro m; unfold groups chunksFor framesPer; rw [hD.perChunk]
  have hpc : cfg.dims.framesPerChunk = framesPer a inner := hD.perChunk
  have hmodc : calls.flatten.length % framesPer a inner = 0 := by
    have hdvd : framesPer a inner ∣ framesPerShard a inner := Nat.dvd_mul_right _ _
    exact Nat.mod_eq_zero_of_dvd (hdvd.trans (Nat.dvd_of_mod_eq_zero hfull))
  have ha : ∀ G l, fileAfter (levelDirV3 root 0 ++ chunkKey (G :: l)) tr = fileAfter (levelDirV3 root 0 ++ chunkKey (G :: l))
      (runEventsV3 env cfg calls.flatten.flatten calls.flatten.length) := by
    intro G l
    apply fileAfter_about
    apply hs.level 0 cfg h0
    exact .inr ⟨G, l, by rw [objectPath_keyV3 hv, levelDirV3_located h hr.located h0]⟩
  have key : ∀ (G : Nat) (l : List Nat), bucketAfter P srv junk old tr (levelDirV3 root 0 ++ chunkKey (G :: l)) =
          ⟨none, (fileAfter (levelDirV3 root 0 ++ chunkKey (G :: l)) tr).or
            (old (levelDirV3 root 0 ++ chunkKey (G :: l))), true⟩ := by
    intro G l
    rw [hb]
    congr 1
    by_cases hin : InBounds (shardGrid (inner ++ [y, x])) l
    · rw [← (grids_of h.commit hd).2.1] at hin
      have hp : levelDirV3 root 0 ++ chunkKey (G :: l) = shardPath cfg G (ravel (mShape cfg.dims.tailDims) l) := by
        unfold shardPath
        rw [unravel_ravel hin, objectPath_keyV3 hv, levelDirV3_located h hr.located h0]
      have hlt : ravel (mShape cfg.dims.tailDims) l < cfg.dims.shardCount := ravel_lt hin
      rw [(grids_of h.commit hd).2.1] at hin
      have hfile := fileAfter_shard (env := env) hval hfit (h3) calls.flatten.flatten (n := calls.flatten.length) (G := G) hlt
      rw [← hp, ← ha, hgr, hka] at hfile
      obtain ⟨k, hk⟩ := Nat.dvd_of_mod_eq_zero hfull
      have hgk : chunksFor a inner calls.flatten.length = k * a.shardSize := by
        unfold chunksFor
        have hfp : 0 < framesPer a inner := by rw [← hpc]; exact hFB
        rw [ceilDiv_of_dvd hfp hmodc, hk]
        unfold framesPerShard
        rw [Nat.mul_assoc, Nat.mul_div_cancel_left _ hfp, Nat.mul_comm]
      have hpos : 0 < framesPerShard a inner := by
        unfold framesPerShard; rw [← hpc]; exact Nat.mul_pos hFB hSpos
      rw [hgk] at hfile
      by_cases hG : G < k
      · rw [if_pos ⟨by rw [hk, Nat.mul_comm]; exact Nat.mul_le_mul_left _ hG, hin⟩, hfile, if_neg (by
          have := (Nat.mul_lt_mul_right hSpos).2 hG
          omega)]
        rfl
      · have hno : ¬ ((G + 1) * framesPerShard a inner ≤ calls.flatten.length ∧ InBounds (shardGrid (inner ++ [y, x])) l) := by
          rintro ⟨hle, _⟩
          rw [hk, Nat.mul_comm (framesPerShard a inner)] at hle
          have := Nat.le_of_mul_le_mul_right hle hpos
          omega
        rw [if_neg hno, hfile, if_pos (Nat.mul_le_mul_right _ (by omega)), Option.none_or]
    · have hno : ¬ ((G + 1) * framesPerShard a inner ≤ calls.flatten.length ∧ InBounds (shardGrid (inner ++ [y, x])) l) :=
        fun hh => hin hh.2
      rw [if_neg hno, ha]
      have hnone : fileAfter (levelDirV3 root 0 ++ chunkKey (G :: l))
          (runEventsV3 env cfg calls.flatten.flatten calls.flatten.length) = none := by
        have hab : about (levelDirV3 root 0 ++ chunkKey (G :: l))
            (runEventsV3 env cfg calls.flatten.flatten calls.flatten.length) = [] := by
          apply about_none
          intro e he hpe
          rw [← levelDirV3_located h hr.located h0, ← objectPath_keyV3 hv] at hpe
          rcases runEventsV3_path he with k1 | ⟨G', k, hk, k1⟩
          · rw [hpe] at k1
            exact objectPath_ne_meta cfg G l k1
          · rw [hpe] at k1
            unfold shardPath at k1
            obtain ⟨e1, e2⟩ := objectPath_inj k1
            apply hin
            rw [← (grids_of h.commit hd).2.1, e2]
            exact unravel_inBounds hk
        rw [fileAfter_filter]
        unfold about at hab
        rw [hab]
        rfl
      rw [hnone, Option.none_or]
  refine ⟨st, tr, h1, h2, key, ?_⟩
  intro hS hold t i py px hi hpy hpx
  have hread := v3_level_read_from h h3 hE ho hV hdec hD.item hs h0 (levelDirV3_located h hr.located h0)
    (file := fun p => (bucketAfter P srv junk old tr p).object)
    (by
      intro G l
      rw [key, hold, framesOfLevel_zero, ← ha]
      exact Option.or_none)
    (t := t) (i := i) (py := py) (px := px)
    (by rw [hD.innerSizes]; exact hi) (by rw [hD.height]; exact hpy) (by rw [hD.width]; exact hpx)
    (by
      rw [framesOfLevel_zero, hka, hD.append, hgr, hS, Nat.mul_one, Nat.mul_one, Nat.div_one]
      omega)
  have hsh : shownT cfg calls.flatten.length t = t := by
    unfold shownT layersIn
    rw [hka, hD.append, hS]
    have := Nat.div_add_mod t a.chunkSize
    rw [Nat.mul_comm] at this
    simp only [Nat.div_one, Nat.mul_one]
    have hm : min 1 (groups cfg calls.flatten.length - t / a.chunkSize) - 1 = 0 := by omega
    rw [hm, Nat.add_zero]
    exact this
  rw [framesOfLevel_zero, hK, hD.chunks, hD.item, hka, hS, Nat.mod_one, if_pos rfl, hsh, hD.innerSizes, hD.width] at hread
  exact hread

/-- **C32 is false** for Zarr V3: whenever the number of appended frames is not a multiple of the frames per append
shard, no object of the last append shard is uploaded, although a filesystem store would have them all, every call and
every sink succeeded, and no error is recorded. -/
theorem s3_v3_last_shard_lost (h : Setup w fuel s cfg cfgs) (h3 : cfg.dims.FitsV3) (hr : InBucket s root) (hE : StorageOk env s)
    (ho : SmallOverhead env) (hV : s.version = 3) (hd : s.dimensions = some (a :: (inner ++ [y, x])))
    (hn : calls.flatten.length < 2 ^ 32)
    (hf : ∀ c ∈ calls, ∀ f ∈ c, f.length = y.arraySize * x.arraySize * itemSize s.dataType)
    {P : Nat} (hP : 0 < P) (hsz : ShardsFit s (a :: (inner ++ [y, x])) P)
    {srv : Text → Nat → Reply} (hsrv : ∀ p, Spec.Healthy (srv p)) {junk : Bytes} (hj : junk.length = P)
    (old : Text → Option Bytes) (hpart : calls.flatten.length % framesPerShard a inner ≠ 0) :
    ∃ st tr, runStream w env fuel s (calls.map List.flatten) =
        some (.ok (st, calls.map (fun c => c.flatten.length), tr)) ∧ st.error = [] ∧
      ∀ l, InBounds (shardGrid (inner ++ [y, x])) l →
        ∀ p, p = levelDirV3 root 0 ++ chunkKey ((calls.flatten.length / framesPerShard a inner) :: l) →
        bucketAfter P srv junk old tr p = ⟨none, old p, true⟩ ∧ (fileAfter p tr).isSome = true := by
  have hD := dimsOf h.valid h.commit hd
  obtain ⟨hK, hka⟩ := shards_of h.commit hd
  obtain ⟨st, tr, h1, h2, hs, hb⟩ := s3_v3_exact h h3 hr hE ho hV hd hn hf hP hsz hsrv hj old
  obtain ⟨rest, hrest⟩ := levelConfigs_head h.levels
  have h0 : cfgs[0]? = some cfg := by rw [hrest]; rfl
  have hmem := List.mem_of_getElem? h0
  have hv := h.versionV3 hV cfg hmem
  obtain ⟨hval, hfit⟩ := h.levelDims.1 cfg hmem
  have hFB := ArrayDims.framesPerChunk_pos hval hfit
  have hSpos : 0 < a.shardSize := by
    rw [← hka]; exact h3.pos cfg.dims.append (by simp [ArrayDims.toList])
  have hpc : cfg.dims.framesPerChunk = framesPer a inner := hD.perChunk
  have hfp : 0 < framesPer a inner := by rw [← hpc]; exact hFB
  have hpos : 0 < framesPerShard a inner := Nat.mul_pos hfp hSpos
  refine ⟨st, tr, h1, h2, fun l hin p hp => ?_⟩
  subst hp
  have hlt := Nat.mod_lt calls.flatten.length hpos
  have hdm := Nat.div_add_mod calls.flatten.length (framesPerShard a inner)
  constructor
  · rw [hb]
    have hno : ¬ ((calls.flatten.length / framesPerShard a inner + 1) * framesPerShard a inner ≤ calls.flatten.length ∧
        InBounds (shardGrid (inner ++ [y, x])) l) := by
      rintro ⟨hle, _⟩
      rw [Nat.add_mul, Nat.one_mul, Nat.mul_comm] at hle
      omega
    rw [if_neg hno]
  · have ha : fileAfter (levelDirV3 root 0 ++ chunkKey ((calls.flatten.length / framesPerShard a inner) :: l)) tr =
        fileAfter (levelDirV3 root 0 ++ chunkKey ((calls.flatten.length / framesPerShard a inner) :: l))
        (runEventsV3 env cfg calls.flatten.flatten calls.flatten.length) := by
      apply fileAfter_about
      apply hs.level 0 cfg h0
      exact .inr ⟨_, l, by rw [objectPath_keyV3 hv, levelDirV3_located h hr.located h0]⟩
    rw [ha]
    rw [← (grids_of h.commit hd).2.1] at hin
    have hp : levelDirV3 root 0 ++ chunkKey ((calls.flatten.length / framesPerShard a inner) :: l) =
        shardPath cfg (calls.flatten.length / framesPerShard a inner) (ravel (mShape cfg.dims.tailDims) l) := by
      unfold shardPath
      rw [unravel_ravel hin, objectPath_keyV3 hv, levelDirV3_located h hr.located h0]
    rw [hp, fileAfter_shard hval hfit h3 _ (ravel_lt hin), if_neg]
    · rfl
    · rw [hka]
      unfold groups
      rw [hpc]
      intro hle
      have hc := ceilDiv_mul_ge (a := calls.flatten.length) hfp
      have h5 := Nat.mul_le_mul_right (framesPer a inner) hle
      have h6 : calls.flatten.length / framesPerShard a inner * a.shardSize * framesPer a inner =
          framesPerShard a inner * (calls.flatten.length / framesPerShard a inner) := by
        unfold framesPerShard; ring
      rw [h6] at h5
      omega

end

namespace Sample

/-- `slab k m` (Crash.lean) stored in a bucket under the prefix `a`, in Zarr version `v`. -/
def slabS3 (v k m : Nat) : Settings := { slab k m with
  s3 := some ⟨some "http://host".toList, some "bucket".toList, some "id".toList, some "secret".toList⟩
  storePath := some "a".toList
  version := v }

def slabS3Cfg (v : Version) (k m : Nat) : WConfig := { slabCfg k m with
  bucket := some "bucket".toList
  storePath := "a".toList
  version := v }

theorem slabS3Setup (k m : Nat) (hk : k = 1 ∨ k = 2) (hm : m = 1 ∨ m = 2) :
    Setup Sample.world 9 (slabS3 3 k m) (slabS3Cfg .v3 k m) [slabS3Cfg .v3 k m] := by
  rcases hk with rfl | rfl <;> rcases hm with rfl | rfl <;> exact ⟨rfl, rfl, rfl, rfl, by decide, fun h => by cases h⟩

theorem slabS3Setup2 : Setup Sample.world 9 (slabS3 2 2 1) (slabS3Cfg .v2 2 1) [slabS3Cfg .v2 2 1] :=
  ⟨rfl, rfl, rfl, rfl, by decide, fun h => by cases h⟩

theorem slabS3Bucket (v k m : Nat) : InBucket (slabS3 v k m) "a".toList := ⟨rfl, _, rfl, by decide⟩

theorem nonempty {s : Settings} : NonemptyOutput Sample.env s := by
  intro q n b out _ h
  cases h
  exact List.cons_ne_nil _ _

end Sample

/-- **C32 is false**: one frame `[5]` with one frame per chunk and two chunks per append shard, part size 5 MiB. Every
call succeeds and the server confirms every request; afterwards a filesystem store contains the shard, the bucket
nothing. -/
theorem s3_v3_violated {srv : Text → Nat → Reply} (hsrv : ∀ p, Spec.Healthy (srv p)) {junk : Bytes}
    (hj : junk.length = 5 * 2 ^ 20) : ∃ st tr,
    runStream Sample.world Sample.env 9 (Sample.slabS3 3 1 2) [[5]] = some (.ok (st, [1], tr)) ∧ st.error = [] ∧
    bucketAfter (5 * 2 ^ 20) srv junk (fun _ => none) tr "a/data/root/0/c0/0/0".toList = ⟨none, none, true⟩ ∧
    (fileAfter "a/data/root/0/c0/0/0".toList tr).isSome = true := by
  obtain ⟨st, tr, h1, h2, h3⟩ := s3_v3_last_shard_lost (calls := [[[5]]]) (Sample.slabS3Setup 1 2 (.inl rfl) (.inr rfl))
    (by decide) (Sample.slabS3Bucket 3 1 2) Sample.storageOk Sample.overhead rfl (inner := []) rfl (by decide) (by
      intro c hc f hf
      rw [List.mem_singleton.1 hc] at hf
      rw [List.mem_singleton.1 hf]
      rfl) (P := 5 * 2 ^ 20) (by decide) (by unfold ShardsFit; decide) hsrv hj (fun _ => none) (by decide)
  refine ⟨st, tr, h1, h2, ?_⟩
  exact h3 [0, 0] (by decide) _ (by decide)

/-- Two frames fill the shard: it is uploaded (the hypotheses of `s3_v3_uploaded_partial` can be met). -/
example {srv : Text → Nat → Reply} (hsrv : ∀ p, Spec.Healthy (srv p)) {junk : Bytes} (hj : junk.length = 5 * 2 ^ 20) : ∃ st tr,
    runStream Sample.world Sample.env 9 (Sample.slabS3 3 2 1) [[5, 6]] = some (.ok (st, [2], tr)) ∧ st.error = [] ∧
    readV3 (fun p => (bucketAfter (5 * 2 ^ 20) srv junk (fun _ => none) tr p).object) "a/data/root/0/c".toList some
      [2, 1, 1] [1, 1, 1] 1 [1, 0, 0] = some [6] := by
  obtain ⟨st, tr, h1, h2, _, h3⟩ := s3_v3_uploaded_partial (calls := [[[5], [6]]]) (decode := some)
    (Sample.slabS3Setup 2 1 (.inr rfl) (.inl rfl))
    (by decide) (Sample.slabS3Bucket 3 2 1) Sample.storageOk Sample.overhead rfl (inner := []) rfl (fun _ => rfl) (by decide) (by
      intro c hc f hf
      rw [List.mem_singleton.1 hc] at hf
      rcases List.mem_cons.1 hf with rfl | hf
      · rfl
      · rw [List.mem_singleton.1 hf]; rfl) (P := 5 * 2 ^ 20) (by decide) (by unfold ShardsFit; decide) hsrv hj (fun _ => none)
    (by decide)
  refine ⟨st, tr, h1, h2, ?_⟩
  have := h3 rfl (fun _ _ => rfl) 1 [] 0 0 trivial (by decide) (by decide)
  exact this

/-- The same in Zarr V2, with a partial chunk. -/
example {srv : Text → Nat → Reply} (hsrv : ∀ p, Spec.Healthy (srv p)) {junk : Bytes} (hj : junk.length = 5 * 2 ^ 20) : ∃ st tr,
    runStream Sample.world Sample.env 9 (Sample.slabS3 2 2 1) [[5, 6], [7]] = some (.ok (st, [2, 1], tr)) ∧ st.error = [] ∧
    readV2 (fun p => (bucketAfter (5 * 2 ^ 20) srv junk (fun _ => none) tr p).object) "a/0/".toList some
      [2, 1, 1] 1 [2, 0, 0] = some [7] := by
  obtain ⟨st, tr, h1, h2, _, h3⟩ := s3_v2_uploaded (calls := [[[5], [6]], [[7]]]) (decode := some)
    Sample.slabS3Setup2 (Sample.slabS3Bucket 2 2 1) Sample.storageOk Sample.nonempty Sample.overhead rfl (inner := []) rfl
    (fun _ => rfl) (by decide) (by
      intro c hc f hf
      rcases List.mem_cons.1 hc with rfl | hc
      · rcases List.mem_cons.1 hf with rfl | hf
        · rfl
        · rw [List.mem_singleton.1 hf]; rfl
      · rw [List.mem_singleton.1 hc] at hf
        rw [List.mem_singleton.1 hf]; rfl) (P := 5 * 2 ^ 20) (by decide) (by decide) hsrv hj (fun _ => none)
  refine ⟨st, tr, h1, h2, ?_⟩
  have := h3 (fun _ _ => rfl) 2 [] 0 0 trivial (by decide) (by decide)
  exact this

end AZ
