import Verif.Lemmas.ThinnedDestroy
import Verif.Props.Exceptions
import Verif.Props.Failures
import Verif.Props.ReadBackV2

set_option linter.unusedSimpArgs false
set_option linter.unusedVariables false

/-! # C66: what failing storage can do to chunks -/

namespace AZ
open Exc Spec

theorem append_keepsOne {env : Env} {s s' : SState} {data : Bytes} {fuel n : Nat} (hV : AllOneLayer s)
    (h : append env fuel data s = some (.ok (s', n))) : AllOneLayer s' := by
  unfold append at h
  split at h
  · simp at h
  · exact hV.cfgs (appendLoop_keeps data fuel h).2

theorem append_noError {env : Env} {s : SState} {data : Bytes} {fuel : Nat} {r : SState × Nat}
    (h : append env fuel data s = some (.ok r)) : s.error = [] := by
  unfold append at h
  split at h
  · simp at h
  · rename_i hc
    cases he : s.error with
    | nil => rfl
    | cons a b => rw [he] at hc; simp at hc

/-- Calls that return, compared with the calls on perfect storage. -/
theorem thin_calls {P : Env} {calls : List (Env × Bytes)} (hE : ∀ c ∈ calls, perfect c.1 = P) {s t t' : SState} (hV : AllOneLayer s)
    {st : XStream} {rs : List Status} (hc : callsX calls (XStream.of s) = some (st, rs)) (hr : none ∉ rs)
    (ht : StreamTwin s t) {ns : List Nat} (hg : appends P (calls.map (·.2)) t = .ok (t', ns)) :
    ∃ s', st = XStream.of s' ∧ AllOneLayer s' ∧ StreamTwin s' t' := by
  induction calls generalizing s t rs ns with
  | nil =>
    cases hc
    cases hg
    exact ⟨s, rfl, hV, ht⟩
  | cons c cs ih =>
    obtain ⟨e, d⟩ := c
    have hp : perfect e = P := hE (e, d) (by simp)
    rw [List.map_cons] at hg
    unfold appends at hg
    unfold callsX at hc
    have ha := agree_append (env := e) d s
    cases hx : append e (appendFuel d) d s with
    | none =>
      rw [hx] at ha
      have ha : appendX e d (XStream.of s) = none := ha
      rw [ha] at hc
      cases hc
    | some r =>
      rw [hx] at ha
      obtain ⟨o, ho, ha⟩ := ha
      rw [ho] at hc
      cases r with
      | ub => have ha : o = .ub := ha; subst ha; cases hc
      | throw =>
        obtain ⟨w', rfl⟩ := ha
        dsimp only at hc
        cases hm : callsX cs w' with
        | none => rw [hm] at hc; cases hc
        | some q =>
          rw [hm] at hc
          simp only [Option.map_some, Option.some.injEq, Prod.mk.injEq] at hc
          rw [← hc.2] at hr
          simp at hr
      | ok p =>
        obtain ⟨s1, n⟩ := p
        have ha : o = .ok n (XStream.of s1) := ha
        subst ha
        dsimp only at hc
        cases hm : callsX cs (XStream.of s1) with
        | none => rw [hm] at hc; cases hc
        | some q =>
          obtain ⟨q1, q2⟩ := q
          rw [hm] at hc
          simp only [Option.map_some, Option.some.injEq, Prod.mk.injEq] at hc
          obtain ⟨rfl, rfl⟩ := hc
          cases hga : append P (appendFuel (e, d).2) (e, d).2 t with
          | none => rw [hga] at hg; cases hg
          | some r =>
            rw [hga] at hg
            cases r with
            | throw => cases hg
            | ub => cases hg
            | ok p =>
              obtain ⟨t1, m⟩ := p
              dsimp only at hg
              obtain ⟨⟨t2, ms⟩, hg1, hg⟩ := Res.bind_eq_ok.1 hg
              cases hg
              obtain ⟨t1', k1, k2⟩ := thin_append hV hx ht (append_noError hga)
              rw [hp] at k1
              have hga' : append P (appendFuel d) d t = some (.ok (t1, m)) := hga
              rw [k1] at hga'
              simp only [Option.some.injEq, Res.ok.injEq, Prod.mk.injEq] at hga'
              obtain ⟨rfl, rfl⟩ := hga'
              exact ih (fun c hc => hE c (by simp [hc])) (append_keepsOne hV hx) hm (by simp at hr; exact hr) k2 hg1

/-- What a cut history can leave of a chunk file. -/
theorem cut_chunk {p : Text} {d : Bytes} {tr : List Ev} (h : Cut (about p tr) [.opened p, .wrote p 0 d, .finalized p]) :
    fileAfter p tr = none ∨ fileAfter p tr = some [] ∨ fileAfter p tr = fileAfter p [.opened p, .wrote p 0 d, .finalized p] := by
  have e : fileAfter p tr = fileAfter p (about p tr) := fileAfter_filter p tr
  rw [e]
  generalize about p tr = x at h
  obtain ⟨pre, hp, ht⟩ := h
  have hpre : pre = [] ∨ pre = [.opened p] ∨ pre = [.opened p, .wrote p 0 d] ∨ pre = [.opened p, .wrote p 0 d, .finalized p] := by
    rw [List.prefix_iff_eq_take] at hp
    rw [hp]
    rcases pre.length with _ | _ | _ | n
    · simp
    · simp
    · simp
    · right; right; right
      simp
  have s1 : stepFile p none (.opened p) = some [] := by simp [stepFile, Ev.path]
  have s2 : ∀ c, stepFile p c (.finalized p) = c := by intro c; simp [stepFile, Ev.path]
  rcases hpre with rfl | rfl | rfl | rfl
  · cases ht
    exact .inl rfl
  · cases ht with
    | keep _ ht => cases ht; exact .inr (.inl (by simp only [fileAfter, List.foldl_cons, List.foldl_nil, s1]))
  · cases ht with
    | keep _ ht =>
      cases ht with
      | keep _ ht => cases ht; exact .inr (.inr (by simp only [fileAfter, List.foldl_cons, List.foldl_nil, s2]))
      | lost _ _ _ ht => cases ht; exact .inr (.inl (by simp only [fileAfter, List.foldl_cons, List.foldl_nil, s1]))
  · cases ht with
    | keep _ ht =>
      cases ht with
      | keep _ ht =>
        cases ht with
        | keep _ ht => cases ht; exact .inr (.inr rfl)
      | lost _ _ _ ht =>
        cases ht with
        | keep _ ht => cases ht; exact .inr (.inl (by simp only [fileAfter, List.foldl_cons, List.foldl_nil, s1, s2]))

section
variable {w : World} {env last : Env} {fuel : Nat} {s : Settings} {cfg : WConfig} {cfgs : List WConfig} {s0 : SState} {st : XStream}
  {rs : List Status} {tr : List Ev} {ok : Bool} {a y x : DimProps} {inner : List DimProps} {root : Text}
  {calls : List (Env × List Bytes)}

/-- The history of a session whose append calls return, compared with the session on perfect storage. -/
theorem cut_run {cs : List (Env × Bytes)} (hone : AllOneLayer s0) (hsame : ∀ c ∈ cs, c.1.compress = env.compress)
    (hlast : last.compress = env.compress) (h0 : createStream w env fuel (some s) = some (.ok s0))
    (hc : callsX cs (XStream.of s0) = some (st, rs)) (hret : none ∉ rs) (hd : destroyX last st = some (tr, ok))
    {t1 : SState} {ns : List Nat} {tr0 : List Ev} (k1 : runStream w (perfect env) fuel s (cs.map (·.2)) = some (.ok (t1, ns, tr0))) :
    Cut tr tr0 := by
  obtain ⟨t0, j1, j2, _⟩ := thin_create h0
  unfold runStream at k1
  rw [j1] at k1
  simp only [Option.some.injEq] at k1
  obtain ⟨⟨t2, ns⟩, g1, k1⟩ := Res.bind_eq_ok.1 k1
  obtain ⟨tr1, g2, k1⟩ := Res.bind_eq_ok.1 k1
  cases k1
  have hp : ∀ e : Env, e.compress = env.compress → perfect e = perfect env := by
    intro e he
    unfold perfect
    rw [he]
  obtain ⟨s', rfl, q1, q2⟩ := thin_calls (P := perfect env) (calls := cs) (fun c hcm => hp _ (hsame c hcm)) hone hc hret j2 g1
  exact cut_destroy q1 q2 hd (by rw [hp _ hlast]; exact g2)

/-- The cut history of a session whose append calls return. -/
theorem cut_session (h : Setup w fuel s cfg cfgs) (hE : StorageOk (perfect env) s) (hV : s.version = 2)
    (hn : (calls.map (·.2)).flatten.length < 2 ^ 32) (hf : ∀ c ∈ calls, ∀ f ∈ c.2, f.length = cfg.dims.frameBytes)
    (hsame : ∀ c ∈ calls, c.1.compress = env.compress) (hlast : last.compress = env.compress)
    (h0 : createStream w env fuel (some s) = some (.ok s0))
    (hc : callsX (calls.map fun c => (c.1, c.2.flatten)) (XStream.of s0) = some (st, rs)) (hret : none ∉ rs)
    (hd : destroyX last st = some (tr, ok)) :
    ∃ st0 tr0, runStream w (perfect env) fuel s (calls.map fun c => c.2.flatten) =
        some (.ok (st0, calls.map (fun c => c.2.flatten.length), tr0)) ∧
      SessionV2 (perfect env) cfg cfgs (calls.map (·.2)).flatten tr0 ∧ Cut tr tr0 := by
  obtain ⟨t1, tr0, k1, k2, k3⟩ := session_v2 (calls := calls.map (·.2)) h hE hV hn (by
    intro c hcm
    obtain ⟨c', hc', rfl⟩ := List.mem_map.1 hcm
    exact hf c' hc')
  rw [List.map_map, List.map_map] at k1
  refine ⟨t1, tr0, k1, k3, cut_run (fun lv hl => .inl (created_allV2 hV h0 lv hl)) ?_ hlast h0 hc hret hd (by rw [List.map_map]; exact k1)⟩
  intro c hcm
  obtain ⟨c', hc', rfl⟩ := List.mem_map.1 hcm
  exact hsame c' hc'

theorem cut_level_chunk (h : Setup w fuel s cfg cfgs) (hV : s.version = 2) (hr : StoredAt s root) (hfr : Fresh w s root)
    {frames : List Bytes} {tr0 : List Ev} (hs : SessionV2 (perfect env) cfg cfgs frames tr0) (hcut : Cut tr tr0)
    {i : Nat} (hi : i < cfgs.length) (g : Nat) (l : List Nat) :
    fileInStore w cfg (levelDir root i ++ chunkKey (g :: l)) tr = none ∨
    fileInStore w cfg (levelDir root i ++ chunkKey (g :: l)) tr = some [] ∨
    fileInStore w cfg (levelDir root i ++ chunkKey (g :: l)) tr = fileInStore w cfg (levelDir root i ++ chunkKey (g :: l)) tr0 := by
  obtain ⟨c, hc⟩ : ∃ c, cfgs[i]? = some c := ⟨cfgs[i], List.getElem?_eq_getElem hi⟩
  have hm := List.mem_of_getElem? hc
  have hv := h.base.versionV2 hV c hm
  obtain ⟨hval, hfit⟩ := h.base.levelDims.1 c hm
  have ho : Owned c (levelDir root i ++ chunkKey (g :: l)) := by
    right
    exact ⟨g, l, by rw [objectPath_key hv, levelDir_eq0 h.base hr hc]⟩
  have hab := hs.level i c hc _ ho
  have e : levelDir root i ++ chunkKey (g :: l) = root ++ '/' :: (decimal i ++ ['/'] ++ chunkKey (g :: l)) := by
    simp [levelDir]
  have hfile : ∀ tr, fileInStore w cfg (levelDir root i ++ chunkKey (g :: l)) tr = fileAfter (levelDir root i ++ chunkKey (g :: l)) tr := by
    intro tr
    rw [e]
    exact fileInStore_fresh h.commit hfr _ tr
  rw [hfile, hfile]
  have hcut := hcut.about (levelDir root i ++ chunkKey (g :: l))
  have e0 : fileAfter (levelDir root i ++ chunkKey (g :: l)) tr0 = fileAfter (levelDir root i ++ chunkKey (g :: l)) (about (levelDir root i ++ chunkKey (g :: l)) tr0) :=
    fileAfter_filter _ tr0
  rw [e0]
  rw [hab] at hcut ⊢
  have hobj : levelDir root i ++ chunkKey (g :: l) = objectPath c g l := by
    rw [← levelDir_eq0 h.base hr hc, ← objectPath_key hv]
  by_cases hin : g < groups c (framesOfLevel cfg i frames).length ∧ InBounds (nShape c.dims.tailDims) l
  · have hp : objectPath c g l = chunkPath c g (ravel (nShape c.dims.tailDims) l) := by
      unfold chunkPath
      rw [unravel_ravel hin.2]
    rw [hobj, hp] at hcut ⊢
    have := filter_run_chunk (perfect env) hval hfit (framesOfLevel cfg i frames).flatten hin.1 (ravel_lt hin.2)
    unfold about at hcut ⊢
    rw [this] at hcut ⊢
    exact cut_chunk hcut
  · have := run_about_none (perfect env) hval hfit (framesOfLevel cfg i frames).flatten (framesOfLevel cfg i frames).length
      (p := levelDir root i ++ chunkKey (g :: l)) (by rw [hobj]; exact objectPath_ne_meta _ _ _) (by
        rw [hobj]
        intro g' k hg hk he
        obtain ⟨e1, e2⟩ := objectPath_inj he
        apply hin
        rw [e1, e2]
        exact ⟨hg, unravel_inBounds hk⟩)
    left
    unfold about at hcut
    rw [this] at hcut
    obtain ⟨pre, hp, ht⟩ := hcut
    rw [List.prefix_nil] at hp
    subst hp
    rw [fileAfter_filter]
    cases hx : tr.filter (fun e => decide (e.path = levelDir root i ++ chunkKey (g :: l))) with
    | nil => rfl
    | cons b bs => rw [hx] at ht; cases ht

/-- **C66, what holds.** V2 (for V3 see `failed_shards_partial`), filesystem, any compression that works. Storage may fail in any way and differently in every call
(directories, sinks, writes, closings); some calls have reported nothing although data was lost, others may be refused
because of an error a job reported earlier (refused calls change nothing: `failed_append_partial`); destroy may fail. If the
other append calls returned, then every chunk file of every level is missing, or empty, or exactly the file of the same session
on perfect storage; and a reader of the array gets, for every pixel of every appended frame: that pixel, or the fill value (no chunk
file), or an error (empty chunk file). Missing: sessions that go on after a call that failed because a directory, a sink or an
array document failed (`frame_replaced_violated`, `twice_compressed_violated`); compression that fails
(`uncompressed_chunk_violated`). -/
theorem failed_writes_partial (h : Setup w fuel s cfg cfgs) (hE : StorageOk (perfect env) s) (hV : s.version = 2)
    (hdim : s.dimensions = some (a :: (inner ++ [y, x]))) (hr : StoredAt s root) (hfr : Fresh w s root)
    {decode : Bytes → Option Bytes} (hdec : Decodes (perfect env) s decode) (hempty : ∀ z, decode [] = some z → z = [])
    (hn : (calls.map (·.2)).flatten.length < 2 ^ 32)
    (hf : ∀ c ∈ calls, ∀ f ∈ c.2, f.length = y.arraySize * x.arraySize * itemSize s.dataType)
    (hsame : ∀ c ∈ calls, c.1.compress = env.compress) (hlast : last.compress = env.compress)
    (h0 : createStream w env fuel (some s) = some (.ok s0))
    (hc : callsX (calls.map fun c => (c.1, c.2.flatten)) (XStream.of s0) = some (st, rs)) (hret : none ∉ rs)
    (hd : destroyX last st = some (tr, ok)) :
    ∃ st0 tr0, runStream w (perfect env) fuel s (calls.map fun c => c.2.flatten) =
        some (.ok (st0, calls.map (fun c => c.2.flatten.length), tr0)) ∧
      (∀ i g l, i < cfgs.length → fileInStore w cfg (levelDir root i ++ chunkKey (g :: l)) tr ∈
        [none, some [], fileInStore w cfg (levelDir root i ++ chunkKey (g :: l)) tr0]) ∧
      ∀ (t : Nat) (i : List Nat) (py px : Nat) (f : Bytes), InBounds (inner.map (·.arraySize)) i →
        py < y.arraySize → px < x.arraySize →
        (calls.map (·.2)).flatten[t * prod (inner.map (·.arraySize)) + ravel (inner.map (·.arraySize)) i]? = some f →
        readV2 (fun p => fileInStore w cfg p tr) (levelDir root 0) decode
          ((a :: (inner ++ [y, x])).map (·.chunkSize)) (itemSize s.dataType) (t :: (i ++ [py, px])) ∈
        [some (pixelOf f x.arraySize (itemSize s.dataType) py px), some (List.replicate (itemSize s.dataType) 0), none] := by
  have hD := dimsOf h.valid h.commit hdim
  have hv := h.dimsValid
  obtain ⟨rest, hrest⟩ := levelConfigs_head h.levels
  have hf' : ∀ c ∈ calls, ∀ f ∈ c.2, f.length = cfg.dims.frameBytes := by rw [hD.frame]; exact hf
  obtain ⟨st0, tr0, k1, k2, k3⟩ := cut_session h hE hV hn hf' hsame hlast h0 hc hret hd
  have hfiles : ∀ i g l, i < cfgs.length → _ := fun i g l hi => cut_level_chunk h hV hr hfr k2 k3 hi g l
  refine ⟨st0, tr0, k1, ?_, ?_⟩
  · intro i g l hi
    rcases hfiles i g l hi with q | q | q <;> simp [q]
  · intro t i py px f hi hpy hpx hfm
    obtain ⟨st1, tr1, j1, _, j2⟩ := v2_read (calls := calls.map (·.2)) h hE hV hdim hr hfr hdec hn (by
      intro c hcm
      obtain ⟨c', hc', rfl⟩ := List.mem_map.1 hcm
      exact hf c' hc')
    rw [List.map_map, List.map_map] at j1
    have j1' : runStream w (perfect env) fuel s (calls.map fun c => c.2.flatten) =
        some (.ok (st1, calls.map (fun c => c.2.flatten.length), tr1)) := j1
    rw [k1] at j1'
    simp only [Option.some.injEq, Res.ok.injEq, Prod.mk.injEq] at j1'
    obtain ⟨rfl, _, rfl⟩ := j1'
    have hgood := j2 t i py px hi hpy hpx
    rw [hfm] at hgood
    dsimp only at hgood
    have hg : gridOf ((a :: (inner ++ [y, x])).map (·.chunkSize)) (t :: (i ++ [py, px])) =
      t / a.chunkSize :: gridOf ((inner ++ [y, x]).map (·.chunkSize)) (i ++ [py, px]) := rfl
    have h3 := hfiles 0 (t / a.chunkSize) (gridOf ((inner ++ [y, x]).map (·.chunkSize)) (i ++ [py, px])) (by rw [hrest]; simp)
    unfold readV2 at hgood ⊢
    rw [hg] at hgood ⊢
    dsimp only at hgood ⊢
    rcases h3 with q | q | q
    · rw [q]; simp
    · have hpos : 0 < prod ((a :: (inner ++ [y, x])).map (·.chunkSize)) * itemSize s.dataType := by
        rw [← hD.chunks, ← hD.item]
        exact ArrayDims.chunkBytes_pos hv
      simp only [q]
      cases hz : decode [] with
      | none => simp
      | some z =>
        rw [hempty z hz]
        dsimp only
        rw [if_neg (by simp only [List.length_nil]; omega)]
        simp
    · simp only [q] 
      rw [hgood]
      simp

end

namespace Sample

/-- Compression that fails at the moment. -/
def noPress : Env := { Sample.env with compress := fun _ _ _ => none }

/-- A disk that does not take the first chunk. -/
def badSector : Env := { Sample.env with write := fun _ _ d => if d = [5, 6] then .failed else .stored }

/-- A disk that can close nothing. -/
def badClose : Env := { Sample.env with finalize := fun _ => false }

end Sample

/-- **C66 (violated), failing compression.** Two frames per chunk, compressed. Compressing the first chunk fails; nothing is said in the
call of frame 6, only the next call reports an error. The chunk file holds the frames uncompressed, which is not the compressed form
of anything, while the array declares the codec: a reader cannot decode frame 5, accepted in the first call. -/
theorem uncompressed_chunk_violated : ∃ s0 st rs tr ok,
    createStream Sample.world Sample.env 9 (some Sample.pressed) = some (.ok s0) ∧
      callsX [(Sample.env, [5]), (Sample.noPress, [6]), (Sample.env, [7])] (XStream.of s0) = some (st, rs) ∧
      destroyX Sample.env st = some (tr, ok) ∧ rs = [some 1, some 1, none] ∧ ok = true ∧
      fileAfter "/tmp/a/0/0/0/0".toList tr = some [5, 6] ∧ ∀ p n b, Sample.env.compress p n b ≠ some [5, 6] := by
  obtain ⟨s0, st, rs, tr, ok, h0, h1, h2, h3⟩ := Sample.sessionX_spec (S := Sample.pressed)
    (calls := [(Sample.env, [5]), (Sample.noPress, [6]), (Sample.env, [7])]) (last := Sample.env)
    (P := fun (rs, ok, tr) => decide (rs = [some 1, some 1, none]) && ok &&
      decide (fileAfter "/tmp/a/0/0/0/0".toList tr = some [5, 6])) (by decide +kernel)
  simp only [Bool.and_eq_true, decide_eq_true_eq] at h3
  obtain ⟨⟨q1, q2⟩, q3⟩ := h3
  exact ⟨s0, st, rs, tr, ok, h0, h1, h2, q1, q2, q3, by intro p n b; simp [Sample.env]⟩

/-- A session that meets the hypotheses of `failed_writes_partial`: a write fails when frame 6 completes the first chunk, and closing
fails while the stream is destroyed; the calls return. -/
example : ∃ s0 st rs tr ok,
    createStream Sample.world Sample.env 9 (some (Sample.strip 2 1 2)) = some (.ok s0) ∧
      callsX ([(Sample.env, [[5]]), (Sample.badSector, [[6]])].map fun c => (c.1, c.2.flatten)) (XStream.of s0) = some (st, rs) ∧
      none ∉ rs ∧ destroyX Sample.badClose st = some (tr, ok) ∧
      fileAfter "/tmp/a/0/0/0/0".toList tr = some [] ∧ perfect Sample.badSector = perfect Sample.env ∧ perfect Sample.badClose = perfect Sample.env ∧ ok = false := by
  obtain ⟨s0, st, rs, tr, ok, h0, h1, h2, h3⟩ := Sample.sessionX_spec (S := Sample.strip 2 1 2)
    (calls := [(Sample.env, [[5]]), (Sample.badSector, [[6]])].map fun c => (c.1, c.2.flatten)) (last := Sample.badClose)
    (P := fun (rs, ok, tr) => decide (none ∉ rs) && decide (fileAfter "/tmp/a/0/0/0/0".toList tr = some []) && !ok) (by decide +kernel)
  simp only [Bool.and_eq_true, decide_eq_true_eq, Bool.not_eq_true'] at h3
  exact ⟨s0, st, rs, tr, ok, h0, h1, h3.1.1, h2, h3.1.2, rfl, rfl, h3.2⟩

namespace Sample

/-- A disk that takes no document. -/
def noDocs : Env := { Sample.env with write := fun _ _ d => if 64 < d.length then .threw else .stored }

/-- Storage that can open no new document. -/
def noMetaSinks : Env := { Sample.env with makeMetaSink := fun _ => false }

end Sample

/-- A document sink opened by a call that then fails stays open and serves later: the array document is written when the stream is
destroyed, although no document can be opened then. -/
example : ∃ s0 st rs tr ok,
    createStream Sample.world Sample.env 9 (some (Sample.strip 2 1 2)) = some (.ok s0) ∧
      callsX [(Sample.env, [5]), (Sample.noDocs, [6])] (XStream.of s0) = some (st, rs) ∧
      destroyX Sample.noMetaSinks st = some (tr, ok) ∧ rs = [some 1, none] ∧ ok = true ∧
      (fileAfter "/tmp/a/0/.zarray".toList tr).map List.length = some 269 := by
  obtain ⟨s0, st, rs, tr, ok, h0, h1, h2, h3⟩ := Sample.sessionX_spec (S := Sample.strip 2 1 2)
    (calls := [(Sample.env, [5]), (Sample.noDocs, [6])]) (last := Sample.noMetaSinks)
    (P := fun (rs, ok, tr) => decide (rs = [some 1, none]) && ok &&
      decide ((fileAfter "/tmp/a/0/.zarray".toList tr).map List.length = some 269)) (by decide +kernel)
  simp only [Bool.and_eq_true, decide_eq_true_eq] at h3
  exact ⟨s0, st, rs, tr, ok, h0, h1, h2, h3.1.1, h3.1.2, h3.2⟩

end AZ
