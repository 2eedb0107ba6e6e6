import Verif.Lemmas.SplitCalls
import Verif.Props.Append

set_option linter.unusedSimpArgs false

/-!
# C13, exactly: what a session with arbitrary append calls stores (no multiscale)

`append_cuts_irrelevant_partial` covers calls that begin at frame boundaries. Here the calls are cut anywhere. The
specification (`Spec/Append.lean`) says, from the sizes of the calls and their bytes alone, which frames each call stores;
the theorems say that the session has exactly the history of storage operations of the session in which each call passes
just those frames. Calls that read past the end of their buffer are excluded; `append_in_bounds_partial` says exactly
which these are. -/

namespace AZ
open Spec

variable {w : World} {env : Env} {fuel : Nat} {s : Settings} {cfg : WConfig} {cfgs : List WConfig}
variable {a : DimProps} {inner : List DimProps} {y x : DimProps} {calls : List Bytes}

theorem destroy_rebuf (env : Env) (b : Bytes) (o : Nat) (st : SState) :
    destroyStream env (rebuf b o st) = destroyStream env st := rfl

/-- In every environment (storage may fail, throw or drop writes at any point), a session whose calls are cut anywhere
succeeds with the history `tr` exactly when the session that passes the frames of `sessionFrames` succeeds with it; each
call then reports the bytes of `sessionBytesOut`. -/
theorem append_cuts_exact (h : Setup w fuel s cfg cfgs) (h3 : s.version = 3 → cfg.dims.FitsV3)
    (hms : s.multiscale = false) (hd : s.dimensions = some (a :: (inner ++ [y, x])))
    (hin : StaysInside (frameSize s y x) 0 calls) (tr : List Ev) :
    ((∃ st ns, runStream w env fuel s calls = some (.ok (st, ns, tr))) ↔
      ∃ st ns, runStream w env fuel s ((sessionFrames (frameSize s y x) 0 calls).map List.flatten) =
        some (.ok (st, ns, tr))) ∧
    ∀ st ns, runStream w env fuel s calls = some (.ok (st, ns, tr)) → ns = sessionBytesOut (frameSize s y x) 0 calls := by
  have core : ∀ st0, createStream w env fuel (some s) = some (.ok st0) →
      (∀ st', (∃ b' o', appends env calls st0 = .ok (rebuf b' o' st', sessionBytesOut (frameSize s y x) 0 calls)) ↔
        ∃ b' o' ns, appends env ((sessionFrames (frameSize s y x) 0 calls).map List.flatten) st0 =
          .ok (rebuf b' o' st', ns)) ∧
      (∀ st' ns, appends env calls st0 = .ok (st', ns) → ns = sessionBytesOut (frameSize s y x) 0 calls) := by
    intro st0 h0
    obtain ⟨hF, hh, ho, _⟩ := reached_healthy h h3 hd ⟨st0, [], h0, rfl⟩ (env := env) (prev := [])
    obtain ⟨cfg', cfgs', hc⟩ := createStream_ok h0
    have ho0 : st0.offset = 0 := hc.offset
    have e : st0 = rebuf st0.buf 0 st0 := by
      cases st0
      simp [rebuf] at ho0 ⊢
      exact ho0
    obtain ⟨_, k2, k3⟩ := appends_split_frames (env := env) hF calls hh (hc.sms.trans hms) hh.buf hh.buf hF hin
    rw [← e] at k2 k3
    exact ⟨k2, k3⟩
  refine ⟨⟨?_, ?_⟩, ?_⟩
  · rintro ⟨st, ns, hr⟩
    obtain ⟨st0, a1, a2, a3⟩ := runStream_ok hr
    obtain ⟨k2, k3⟩ := core st0 a1
    rw [k3 _ _ a2] at a2
    obtain ⟨b', o', ns', k⟩ := (k2 st).1 ⟨st.buf, st.offset, a2⟩
    exact ⟨_, _, runStream_of a1 k (by rw [destroy_rebuf]; exact a3)⟩
  · rintro ⟨st, ns, hr⟩
    obtain ⟨st0, a1, a2, a3⟩ := runStream_ok hr
    obtain ⟨k2, k3⟩ := core st0 a1
    obtain ⟨b', o', k⟩ := (k2 st).2 ⟨st.buf, st.offset, ns, a2⟩
    exact ⟨_, _, runStream_of a1 k (by rw [destroy_rebuf]; exact a3)⟩
  · intro st ns hr
    obtain ⟨st0, a1, a2, a3⟩ := runStream_ok hr
    exact (core st0 a1).2 _ _ a2

/-- Zarr V2 on healthy storage: every session whose calls stay inside their buffers succeeds, and reading the dataset
returns the frames of `sessionFrames`, zero behind them. -/
theorem v2_read_cut (h : Setup w fuel s cfg cfgs) (hE : StorageOk env s) (hV : s.version = 2)
    (hms : s.multiscale = false) (hd : s.dimensions = some (a :: (inner ++ [y, x]))) {root : Text} (hr : StoredAt s root)
    (hfr : Fresh w s root) {decode : Bytes → Option Bytes} (hdec : Decodes env s decode)
    (hin : StaysInside (frameSize s y x) 0 calls)
    (hn : (sessionFrames (frameSize s y x) 0 calls).flatten.length < 2 ^ 32) :
    ∃ st tr, runStream w env fuel s calls = some (.ok (st, sessionBytesOut (frameSize s y x) 0 calls, tr)) ∧
      ∀ (t : Nat) (i : List Nat) (py px : Nat), InBounds (inner.map (·.arraySize)) i → py < y.arraySize →
        px < x.arraySize →
        readV2 (fun p => fileInStore w cfg p tr) (levelDir root 0) decode
          ((a :: (inner ++ [y, x])).map (·.chunkSize)) (itemSize s.dataType) (t :: (i ++ [py, px])) =
        some (match (sessionFrames (frameSize s y x) 0 calls).flatten[
            t * prod (inner.map (·.arraySize)) + ravel (inner.map (·.arraySize)) i]? with
          | some f => pixelOf f x.arraySize (itemSize s.dataType) py px
          | none => List.replicate (itemSize s.dataType) 0) := by
  obtain ⟨st, tr, h1, _, h3⟩ := v2_read h hE hV hd hr hfr hdec hn (sessionFrames_length hin)
  have hx := append_cuts_exact (env := env) h (fun hh => by rw [hV] at hh; cases hh) hms hd hin tr
  obtain ⟨st', ns, h2⟩ := hx.1.2 ⟨_, _, h1⟩
  have := hx.2 _ _ h2
  subst this
  exact ⟨st', tr, h2, h3⟩

/-- Ten bytes of frame 0; the rest of it, frame 1 and frame 2; frame 3: the second call stores its first 70 bytes and then
the 70 bytes behind its first sixty (frame 1), keeping ten; the third one begins with ten bytes pending, so it stores its
own beginning (frame 3). Three frames are stored for four, and the first one is not any of the four. -/
def Sample.cutCalls : List Bytes :=
  [(Sample.frame 0).take 10, (Sample.frame 0).drop 10 ++ Sample.frame 1 ++ Sample.frame 2, Sample.frame 3]

theorem wholeFrames_one {d : Bytes} (h : 70 ≤ d.length) (h' : d.length < 140) : wholeFrames 70 d = [d.take 70] := by
  have : d.length / 70 = 1 := by omega
  unfold wholeFrames
  rw [this]
  simp

theorem wholeFrames_none {d : Bytes} (h : d.length < 70) : wholeFrames 70 d = [] := by
  have : d.length / 70 = 0 := by omega
  unfold wholeFrames
  rw [this]
  simp

theorem Sample.cut_inside : StaysInside 70 0 Sample.cutCalls ∧ sessionBytesOut 70 0 Sample.cutCalls = [10, 200, 120] := by
  have e1 : ((Sample.frame 0).take 10).length = 10 := by simp [Sample.frame_length]
  have e2 : ((Sample.frame 0).drop 10 ++ Sample.frame 1 ++ Sample.frame 2).length = 200 := by simp [Sample.frame_length]
  have e3 := Sample.frame_length 3
  unfold Sample.cutCalls
  simp only [StaysInside, sessionBytesOut, e1, e2, e3]
  decide

theorem Sample.cut_frames : sessionFrames 70 0 Sample.cutCalls =
    [[], [(Sample.frame 0).drop 10 ++ (Sample.frame 1).take 10, Sample.frame 1], [Sample.frame 3]] := by
  have e0 := Sample.frame_length 0
  have l1 := Sample.frame_length 1
  have l2 := Sample.frame_length 2
  have e1 : ((Sample.frame 0).take 10).length = 10 := by simp [Sample.frame_length]
  have e2 : ((Sample.frame 0).drop 10 ++ Sample.frame 1 ++ Sample.frame 2).length = 200 := by simp [Sample.frame_length]
  have e3 := Sample.frame_length 3
  have c1 : callFrames 70 0 ((Sample.frame 0).take 10) = [] := by
    rw [callFrames, if_pos rfl, wholeFrames_none (by omega)]
  have n1 : nextPending 70 0 10 = 10 := by decide
  have n2 : nextPending 70 10 200 = 10 := by decide
  have t : ((Sample.frame 0).drop 10).length = 60 := by rw [List.length_drop, e0]
  have c2 : callFrames 70 10 ((Sample.frame 0).drop 10 ++ Sample.frame 1 ++ Sample.frame 2) =
      [(Sample.frame 0).drop 10 ++ (Sample.frame 1).take 10, Sample.frame 1] := by
    rw [callFrames, if_neg (by omega), if_pos (by rw [e2]; decide), e2, wholeFrames_one]
    · generalize (Sample.frame 0).drop 10 = u at *
      generalize Sample.frame 1 = v at *
      generalize Sample.frame 2 = z at *
      have h1 : (u ++ v ++ z).take 70 = u ++ v.take 10 := by
        rw [List.append_assoc, List.take_append, t, List.take_of_length_le (by omega), List.take_append, l1]
        simp
      have h2 : (((u ++ v ++ z).drop 60).take 80).take 70 = v := by
        rw [List.append_assoc, List.drop_append, t, List.drop_eq_nil_of_le (by omega), List.nil_append, Nat.sub_self,
          List.drop_zero, List.take_take, List.take_append, List.take_of_length_le (by omega)]
        simp [l1]
      rw [h1]
      exact congrArg (fun v => [_, v]) h2
    · rw [List.length_take, List.length_drop, e2]; omega
    · rw [List.length_take, List.length_drop, e2]; omega
  have c3 : callFrames 70 10 (Sample.frame 3) = [Sample.frame 3] := by
    rw [callFrames, if_neg (by omega), if_pos (by rw [e3]; decide), e3, List.take_of_length_le (by omega),
      wholeFrames_none (by rw [List.length_take]; omega)]
  unfold Sample.cutCalls
  simp only [sessionFrames, e1, e2, n1, n2, c1, c2, c3]

/-- The session succeeds on the sample and the third frame of the dataset is frame 3. -/
example : ∃ st tr, runStream Sample.world Sample.env 9 Sample.settings1 Sample.cutCalls =
      some (.ok (st, [10, 200, 120], tr)) ∧
    readV2 (fun p => fileInStore Sample.world Sample.cfg p tr) "/tmp/a.zarr/0/".toList some [2, 2, 2, 3] 2 [0, 1, 0, 0] =
      some (pixelOf (Sample.frame 1) 7 2 0 0) ∧
    readV2 (fun p => fileInStore Sample.world Sample.cfg p tr) "/tmp/a.zarr/0/".toList some [2, 2, 2, 3] 2 [0, 2, 0, 0] =
      some (pixelOf (Sample.frame 3) 7 2 0 0) := by
  obtain ⟨st, tr, h1, h2⟩ := v2_read_cut (calls := Sample.cutCalls) Sample.setup1 Sample.storageOk rfl rfl
    (a := Sample.dimT) (inner := [Sample.dimC]) (y := Sample.dimY) (x := Sample.dimX) rfl Sample.storedAt1 Sample.fresh1
    (decode := some) (by unfold Decodes; exact fun b => rfl) (by rw [Sample.fs]; exact Sample.cut_inside.1)
    (by rw [Sample.fs, Sample.cut_frames]; simp)
  rw [Sample.fs, Sample.cut_inside.2] at h1
  have h3 := h2 0 [1] 0 0 (by decide) (by decide) (by decide)
  have h4 := h2 0 [2] 0 0 (by decide) (by decide) (by decide)
  rw [Sample.fs, Sample.cut_frames] at h3 h4
  exact ⟨st, tr, h1, h3, h4⟩

end AZ
