import Verif.Spec.Locations
import Verif.Props.IsolationS3
import Verif.Props.Settings
import Verif.Spec.Reader

/-!
# C101: the store path names the place of the dataset, however it is spelled
-/

namespace AZ
open Spec

/-! ### Paths -/

theorem splitSlash_ne_nil (p : Text) : splitSlash p ≠ [] := by
  cases p with
  | nil => simp [splitSlash]
  | cons c cs =>
    simp only [splitSlash]
    split
    · simp
    · split <;> simp

theorem splitSlash_append (a b : Text) : splitSlash (a ++ '/' :: b) = splitSlash a ++ splitSlash b := by
  induction a with
  | nil => simp [splitSlash]
  | cons c cs ih =>
    by_cases hc : c = '/'
    · simp [splitSlash, hc, ih]
    · simp only [List.cons_append, splitSlash, if_neg hc, ih]
      cases h : splitSlash cs with
      | nil => exact absurd h (splitSlash_ne_nil cs)
      | cons x xs => simp

theorem splitSlash_noslash {f : Text} (h : '/' ∉ f) : splitSlash f = [f] := by
  induction f with
  | nil => rfl
  | cons c cs ih =>
    have hc : c ≠ '/' := fun e => h (by simp [e])
    simp only [splitSlash, if_neg hc, ih (fun e => h (List.mem_cons_of_mem _ e))]

/-- A path with a slash: what precedes the last one, and the rest. -/
theorem exists_dir (p : Text) (h : '/' ∈ p) : ∃ d f, p = d ++ '/' :: f ∧ '/' ∉ f := by
  induction p with
  | nil => cases h
  | cons c cs ih =>
    by_cases hm : '/' ∈ cs
    · obtain ⟨d, f, e, hf⟩ := ih hm
      exact ⟨c :: d, f, by rw [e]; rfl, hf⟩
    · rcases List.mem_cons.1 h with e | e
      · exact ⟨[], cs, by rw [← e]; rfl, hm⟩
      · exact absurd e hm

theorem dropWhile_noslash {f r : Text} (h : '/' ∉ f) : (f ++ '/' :: r).dropWhile (· ≠ '/') = '/' :: r := by
  induction f with
  | nil => simp
  | cons c cs ih =>
    have hc : c ≠ '/' := fun e => h (by simp [e])
    rw [List.cons_append, List.dropWhile_cons_of_pos (by simpa using hc)]
    exact ih fun e => h (List.mem_cons_of_mem _ e)

theorem dirPart_slash {d f : Text} (h : '/' ∉ f) : dirPart (d ++ '/' :: f) = d ++ ['/'] := by
  unfold dirPart
  rw [List.reverse_append, List.reverse_cons, List.append_assoc, List.singleton_append,
    dropWhile_noslash (by simpa using h), List.reverse_cons, List.reverse_reverse]

theorem dropWhile_all {f : Text} (h : '/' ∉ f) : f.dropWhile (· ≠ '/') = [] := by
  induction f with
  | nil => rfl
  | cons c cs ih =>
    have hc : c ≠ '/' := fun e => h (by simp [e])
    rw [List.dropWhile_cons_of_pos (by simpa using hc)]
    exact ih fun e => h (List.mem_cons_of_mem _ e)

theorem dirPart_noslash {f : Text} (h : '/' ∉ f) : dirPart f = [] := by
  unfold dirPart
  rw [dropWhile_all (by simpa using h)]
  rfl

/-- `d` without the slashes at its end. -/
def stripEnd (d : Text) : Text := (d.reverse.dropWhile (· = '/')).reverse

theorem stripEnd_slash (d : Text) : stripEnd (d ++ ['/']) = stripEnd d := by
  unfold stripEnd
  rw [List.reverse_append, List.reverse_singleton, List.singleton_append, List.dropWhile_cons_of_pos (by decide)]

theorem stripEnd_other {d : Text} {c : Char} (h : c ≠ '/') : stripEnd (d ++ [c]) = d ++ [c] := by
  unfold stripEnd
  rw [List.reverse_append, List.reverse_singleton, List.singleton_append, List.dropWhile_cons_of_neg (by simpa using h),
    List.reverse_cons, List.reverse_reverse]

/-- The names of a path. -/
def namesOf (p : Text) : List Text := (splitSlash p).filter fun x => !(x = [] || x = ['.'])

theorem namesOf_append (a b : Text) : namesOf (a ++ '/' :: b) = namesOf a ++ namesOf b := by
  unfold namesOf
  rw [splitSlash_append, List.filter_append]

theorem namesOf_nil : namesOf [] = [] := by decide

theorem namesOf_stripEnd (d : Text) : namesOf (stripEnd d) = namesOf d := by
  induction d using List.reverseRecOn with
  | nil => rfl
  | append_singleton d c ih =>
    by_cases hc : c = '/'
    · rw [hc, stripEnd_slash, ih, namesOf_append, namesOf_nil, List.append_nil]
    · rw [stripEnd_other hc]

theorem stripEnd_head {d : Text} (h : stripEnd d ≠ []) : (stripEnd d).head? = d.head? := by
  induction d using List.reverseRecOn with
  | nil => rfl
  | append_singleton d c ih =>
    by_cases hc : c = '/'
    · rw [hc, stripEnd_slash] at h ⊢
      rw [ih h]
      cases d with
      | nil => exact absurd rfl h
      | cons => rfl
    · rw [stripEnd_other hc]

theorem stripEnd_nil {d : Text} (h : stripEnd d = []) : ∀ c ∈ d, c = '/' := by
  induction d using List.reverseRecOn with
  | nil => intro c hc; cases hc
  | append_singleton d c ih =>
    by_cases hc : c = '/'
    · rw [hc, stripEnd_slash] at h
      intro x hx
      rcases List.mem_append.1 hx with hx | hx
      · exact ih h x hx
      · rw [List.mem_singleton.1 hx, hc]
    · rw [stripEnd_other hc] at h
      exact absurd h (by simp)

/-- The place of the parent: what precedes the last slash. -/
theorem place_parent {d f : Text} (h : '/' ∉ f) :
    placeOf (checkedParent (d ++ '/' :: f)) = ⟨(d ++ ['/']).head? = some '/', namesOf d⟩ := by
  have e : parentPath (d ++ '/' :: f) = if stripEnd d = [] then ['/'] else stripEnd d := by
    unfold parentPath
    rw [dirPart_slash h]
    show (if stripEnd (d ++ ['/']) = [] && d ++ ['/'] ≠ [] then ['/'] else stripEnd (d ++ ['/'])) = _
    rw [stripEnd_slash]
    by_cases h0 : stripEnd d = [] <;> simp [h0]
  unfold checkedParent
  rw [e]
  by_cases h0 : stripEnd d = []
  · rw [if_pos h0, if_neg (by simp)]
    have hd : namesOf d = [] := by rw [← namesOf_stripEnd, h0, namesOf_nil]
    have hh : (d ++ ['/']).head? = some '/' := by
      cases d with
      | nil => rfl
      | cons c cs => rw [stripEnd_nil h0 c (by simp)]; rfl
    rw [hd, hh]
    decide
  · rw [if_neg h0, if_neg h0]
    have hh : (d ++ ['/']).head? = (stripEnd d).head? := by
      rw [stripEnd_head h0]
      cases d with
      | nil => exact absurd rfl h0
      | cons => rfl
    rw [hh, ← namesOf_stripEnd d]
    rfl

theorem place_parent_plain {f : Text} (h : '/' ∉ f) : placeOf (checkedParent f) = ⟨false, []⟩ := by
  have e : parentPath f = [] := by
    unfold parentPath
    rw [dirPart_noslash h]
    rfl
  unfold checkedParent
  rw [e, if_pos rfl]
  decide


/-- The path ends with the name of the dataset: not with a slash, nor with `.`. -/
def EndsInName (p : Text) : Prop := ∃ d f, (p = f ∨ p = d ++ '/' :: f) ∧ '/' ∉ f ∧ f ≠ [] ∧ f ≠ ['.']

theorem namesOf_name {f : Text} (h : '/' ∉ f) (h0 : f ≠ []) (h1 : f ≠ ['.']) : namesOf f = [f] := by
  unfold namesOf
  rw [splitSlash_noslash h, List.filter_cons_of_pos (by simp [h0, h1]), List.filter_nil]

theorem head_ne_slash {f : Text} (h : '/' ∉ f) : decide (f.head? = some '/') = false := by
  rw [decide_eq_false_iff_not]
  intro e
  exact h (List.mem_of_mem_head? e)

/-- Where the validation looks, for a path that ends with a name: the directory that will contain the dataset. -/
theorem checkedParent_containing {p : Text} (h : EndsInName p) : placeOf (checkedParent p) = containing (placeOf p) := by
  obtain ⟨d, f, e, h1, h2, h3⟩ := h
  rcases e with rfl | rfl
  · rw [place_parent_plain h1]
    unfold containing placeOf
    rw [head_ne_slash h1]
    show _ = Place.mk false (namesOf p).dropLast
    rw [namesOf_name h1 h2 h3]
    rfl
  · rw [place_parent h1]
    unfold containing placeOf
    show _ = Place.mk _ (namesOf (d ++ '/' :: f)).dropLast
    rw [namesOf_append, namesOf_name h1 h2 h3, List.dropLast_concat]
    congr 2
    cases d <;> rfl

/-- For a path that ends with a slash: the dataset itself. -/
theorem checkedParent_slash {p : Text} (h : p ≠ []) : placeOf (checkedParent (p ++ ['/'])) = placeOf p := by
  rw [place_parent (by simp)]
  unfold placeOf
  congr 2
  cases p with
  | nil => exact absurd rfl h
  | cons => rfl

theorem placeOf_slash {p : Text} (h : p ≠ []) : placeOf (p ++ ['/']) = placeOf p := by
  unfold placeOf
  show Place.mk _ (namesOf (p ++ '/' :: [])) = Place.mk _ (namesOf p)
  rw [namesOf_append, namesOf_nil, List.append_nil]
  congr 2
  cases p with
  | nil => exact absurd rfl h
  | cons => rfl

/-- For a path that begins with a name: a directory below that name, in the working directory. -/
theorem checkedParent_begins {x r : Text} (hx : '/' ∉ x) (h0 : x ≠ []) (h1 : x ≠ ['.']) :
    ∃ l, placeOf (checkedParent (x ++ '/' :: r)) = ⟨false, x :: l⟩ := by
  have hh : ∀ y : Text, decide ((x ++ y).head? = some '/') = false := by
    intro y
    cases x with
    | nil => exact absurd rfl h0
    | cons c cs => exact head_ne_slash (f := c :: cs) hx
  by_cases hr : '/' ∈ r
  · obtain ⟨d, f, rfl, hf⟩ := exists_dir r hr
    refine ⟨namesOf d, ?_⟩
    have e : x ++ '/' :: (d ++ '/' :: f) = (x ++ '/' :: d) ++ '/' :: f := by simp
    rw [e, place_parent hf, namesOf_append, namesOf_name hx h0 h1, List.append_assoc, hh]
    rfl
  · refine ⟨[], ?_⟩
    rw [place_parent hr, namesOf_name hx h0 h1, hh]

/-! ### The file system -/

/-- A file system in which every directory exists and can be written to. -/
def FileSystem.open : FileSystem := ⟨fun _ => true, fun _ => true, fun _ => true⟩

/-- **C101, on the file system, in part.** If the store path ends with a name, then whether it is accepted depends on the directory that
will contain the dataset, and on nothing else in the file system: it must exist, be a directory and be writable. Missing: paths that end
with a slash or `.`, and the spellings of the theorems below. -/
theorem store_path_accepted_partial {w : World} {fs : FileSystem} {s : Settings} {p : Text} (h3 : s.s3 = none)
    (hp : s.storePath = some p) (he : EndsInName p) :
    validateSettings (w.on fs) (some s) = .ok true ↔
      validateSettings (w.on .open) (some s) = .ok true ∧ CanHold fs (containing (placeOf p)) := by
  rw [validation_exact, validation_exact, ← checkedParent_containing he]
  constructor
  · rintro ⟨a1, ⟨q, b1, b2, b3⟩, a3, a4, a5, a6, a7⟩
    cases hp.symm.trans b1
    exact ⟨⟨a1, ⟨p, hp, b2, fun _ => ⟨rfl, rfl, rfl⟩⟩, a3, a4, a5, a6, a7⟩, b3 h3⟩
  · rintro ⟨⟨a1, ⟨q, b1, b2, -⟩, a3, a4, a5, a6, a7⟩, b⟩
    cases hp.symm.trans b1
    exact ⟨a1, ⟨p, hp, b2, fun _ => b⟩, a3, a4, a5, a6, a7⟩

theorem created_good {w : World} {env : Env} {fuel : Nat} {s : Settings} {st : SState}
    (h : apiCreate w env fuel (some s) = (true, some (.ok st))) : GoodSettings w s := by
  unfold apiCreate at h
  split at h
  · rename_i hv hs
    cases hs
    exact (validation_exact w s).1 hv
  · cases h

theorem good_noNull {w : World} {s : Settings} (h : GoodSettings w s) : NoNullStrings s := by
  obtain ⟨_, _, a3, _, _, _, ds, b1, b2⟩ := h
  constructor
  · intro x hx
    obtain ⟨⟨e1, k1, _⟩, ⟨e2, k2, _⟩, ⟨e3, k3, _⟩, b, t, k4, _⟩ := a3 x hx
    rw [k1, k2, k3, k4]
    exact ⟨by simp, by simp, by simp, by simp⟩
  · intro ds' hd d hm
    cases b1.symm.trans hd
    obtain ⟨n, k, _⟩ := (b2.each d hm).name
    rw [k]
    simp

/-- If the directory that the validation looks at does not exist, the stream is not created. -/
theorem refused {w : World} {fs : FileSystem} {env : Env} {fuel : Nat} {s : Settings} {p : Text} (h3 : s.s3 = none)
    (hn : NoNullStrings s) (h : fs.exist (placeOf (checkedParent p)) = false) :
    apiCreate (w.on fs) env fuel (some { s with storePath := some p }) = (false, some .throw) := by
  refine invalid_settings_rejected ?_ hn
  rintro ⟨_, ⟨q, b1, _, b3⟩, _⟩
  cases b1
  have := (b3 h3).1
  exact absurd (h.symm.trans this) (by decide)

/-- **C101, violated: a slash at the end.** Whenever a stream can be created for a store path at which nothing exists yet, it is not
created when the same path is written with a slash at its end. -/
theorem trailing_slash_violated {w : World} {fs : FileSystem} {env : Env} {fuel : Nat} {s : Settings} {st : SState} {p : Text}
    (h3 : s.s3 = none) (hp : s.storePath = some p) (h : apiCreate (w.on fs) env fuel (some s) = (true, some (.ok st)))
    (hnew : fs.exist (placeOf p) = false) :
    placeOf (p ++ ['/']) = placeOf p ∧
    apiCreate (w.on fs) env fuel (some { s with storePath := some (p ++ ['/']) }) = (false, some .throw) := by
  have hg := created_good h
  obtain ⟨q, b1, b2, _⟩ := hg.path
  cases hp.symm.trans b1
  exact ⟨placeOf_slash b2, refused h3 (good_noNull hg) (by rw [checkedParent_slash b2]; exact hnew)⟩

/-- **C101, violated: white space before the path.** `create` removes white space from the store path, but after it has looked for the
parent directory. Whenever a stream can be created for an absolute path, it is not created when a space is written before the path
(unless the working directory contains a directory named by a space). -/
theorem leading_space_violated {w : World} {fs : FileSystem} {env : Env} {fuel : Nat} {s : Settings} {st : SState} {r : Text}
    (h3 : s.s3 = none) (hp : s.storePath = some ('/' :: r)) (h : apiCreate (w.on fs) env fuel (some s) = (true, some (.ok st)))
    (hd : ∀ l, fs.exist ⟨false, [' '] :: l⟩ = false) :
    trim (' ' :: '/' :: r) = trim ('/' :: r) ∧
    apiCreate (w.on fs) env fuel (some { s with storePath := some (' ' :: '/' :: r) }) = (false, some .throw) := by
  refine ⟨rfl, refused h3 (good_noNull (created_good h)) ?_⟩
  obtain ⟨l, e⟩ := checkedParent_begins (x := [' ']) (r := r) (by decide) (by decide) (by decide)
  rw [show ' ' :: '/' :: r = [' '] ++ '/' :: r from rfl, e]
  exact hd l

/-- **C101, violated: the scheme `file://`.** The code that opens the files takes `file://` for a scheme (`sink.creator.cpp:25-27, 70-72,
110-112`), the validation does not. Whenever a stream can be created for an absolute path, it is not created when `file://` is written
before the path (unless the working directory contains a directory named `file:`). -/
theorem file_scheme_violated {w : World} {fs : FileSystem} {env : Env} {fuel : Nat} {s : Settings} {st : SState} {r : Text}
    (h3 : s.s3 = none) (hp : s.storePath = some ('/' :: r)) (h : apiCreate (w.on fs) env fuel (some s) = (true, some (.ok st)))
    (hd : ∀ l, fs.exist ⟨false, "file:".toList :: l⟩ = false) :
    apiCreate (w.on fs) env fuel (some { s with storePath := some ("file://".toList ++ '/' :: r) }) = (false, some .throw) := by
  refine refused h3 (good_noNull (created_good h)) ?_
  obtain ⟨l, e⟩ := checkedParent_begins (x := "file:".toList) (r := '/' :: '/' :: r) (by decide) (by decide) (by decide)
  have e1 : "file://".toList = "file:".toList ++ ['/', '/'] := by decide
  rw [e1, List.append_assoc, show ['/', '/'] ++ '/' :: r = '/' :: '/' :: '/' :: r from rfl, e]
  exact hd l

/-! ### S3 -/

theorem normal_append {a b : Text} : NormalKey (a ++ '/' :: b) ↔ NormalKey a ∧ NormalKey b := by
  unfold NormalKey
  rw [splitSlash_append]
  simp only [List.mem_append]
  exact ⟨fun h => ⟨fun x hx => h x (.inl hx), fun x hx => h x (.inr hx)⟩, fun h x hx => hx.elim (h.1 x) (h.2 x)⟩

theorem normal_name {f : Text} (h : '/' ∉ f) (h0 : f ≠ []) : NormalKey f := by
  unfold NormalKey
  rw [splitSlash_noslash h]
  intro x hx
  rw [List.mem_singleton.1 hx]
  exact h0

instance (k : Text) : Decidable (NormalKey k) := by unfold NormalKey; infer_instance

theorem normal_suffix {f : Text} (h : '/' ∉ f) (h0 : f ≠ []) (l : List Nat) : NormalKey (f ++ suffix l) := by
  induction l generalizing f with
  | nil => rw [show suffix [] = [] from rfl, List.append_nil]; exact normal_name h h0
  | cons k l ih =>
    rw [show suffix (k :: l) = '/' :: (decimal k ++ suffix l) from rfl, normal_append]
    exact ⟨normal_name h h0, ih (decimal_no_slash k) (decimal_ne_nil k)⟩

theorem normal_metaMid (v : Version) (i : Nat) : NormalKey (metaMid v i) := by
  cases v with
  | v2 =>
    rw [metaMid_v2]
    exact normal_append.2 ⟨normal_name (decimal_no_slash i) (decimal_ne_nil i), by decide⟩
  | v3 =>
    rw [metaMid_v3]
    show NormalKey (['m', 'e', 't', 'a'] ++ '/' :: (['r', 'o', 'o', 't'] ++ '/' :: (decimal i ++ ".array.json".toList)))
    rw [normal_append, normal_append]
    refine ⟨by decide, by decide, normal_name ?_ ?_⟩
    · intro hm
      rcases List.mem_append.1 hm with hm | hm
      · exact decimal_no_slash i hm
      · exact absurd hm (by decide)
    · intro e
      exact decimal_ne_nil i (List.append_eq_nil_iff.1 e).1

theorem normal_data (v : Version) (i g : Nat) (l : List Nat) : NormalKey (dataMid v i ++ (decimal g ++ suffix l)) := by
  cases v with
  | v2 =>
    rw [show dataMid .v2 i = decimal i ++ ['/'] from by unfold dataMid; rfl, List.append_assoc]
    exact normal_append.2 ⟨normal_name (decimal_no_slash i) (decimal_ne_nil i),
      normal_suffix (decimal_no_slash g) (decimal_ne_nil g) l⟩
  | v3 =>
    rw [dataMid_v3]
    have e : 'd' :: (['a', 't', 'a', '/', 'r', 'o', 'o', 't', '/'] ++ (decimal i ++ ['/', 'c'])) ++ (decimal g ++ suffix l) =
        ['d', 'a', 't', 'a'] ++ '/' :: (['r', 'o', 'o', 't'] ++ '/' :: (decimal i ++ '/' :: (('c' :: decimal g) ++ suffix l))) := by simp
    rw [e, normal_append, normal_append, normal_append]
    refine ⟨by decide, by decide, normal_name (decimal_no_slash i) (decimal_ne_nil i), normal_suffix ?_ (by simp) l⟩
    intro hm
    rcases List.mem_cons.1 hm with hm | hm
    · exact absurd hm (by decide)
    · exact decimal_no_slash g hm

theorem normal_key {v : Version} {key : Text} (h : key ∈ metaKeys v) : NormalKey key := by
  have : ∀ k ∈ metaKeys v, NormalKey k := by cases v <;> decide
  exact this key h

theorem StreamObject.normal {cfg : WConfig} {cfgs : List WConfig} {root p : Text} {fuel : Nat} {S : Settings} (hr : LocatedAt S root)
    (hc : commitSettings S = .ok cfg) (hl : levelConfigs fuel S.multiscale cfg = some (.ok cfgs))
    (h : StreamObject cfg cfgs p) : NormalKey p ↔ NormalKey root := by
  have key : ∀ q, NormalKey q → p = root ++ '/' :: q → (NormalKey p ↔ NormalKey root) := by
    intro q hq e
    rw [e, normal_append]
    exact ⟨fun h => h.1, fun h => ⟨h, hq⟩⟩
  rcases h with ⟨c, hm, h⟩ | ⟨k, hk, e⟩
  · obtain ⟨i, hi⟩ := List.mem_iff_getElem?.1 hm
    have hb := hr.base hc (levelConfigs_inherits hl hi).1.same
    rcases h with e | ⟨g, l, e⟩
    · exact key _ (normal_metaMid c.version c.level) (by rw [e, arrayMetaPath_eq, hb]; simp)
    · exact key _ (normal_data c.version c.level g l) (by rw [e]; unfold objectPath; rw [hb]; simp)
  · exact key _ (normal_key hk) (by rw [e]; exact hr.streamDoc hc k)

namespace S3

/-- **C101, on S3, in part.** Whatever happens to the stream, every object it sends to the bucket has a key that a reader can ask for, if
and only if the store path (without surrounding white space) is names joined by single slashes. (The objects are those of C83, below the
store path.) -/
theorem s3_keys_exact_partial {w : World} {x : Session} (h : Uploaded w x) :
    ∀ e ∈ x.events, (∃ q, e.path = x.root ++ '/' :: q) ∧ (NormalKey e.path ↔ NormalKey x.root) := by
  intro e he
  refine ⟨uploaded_under h e he, ?_⟩
  obtain ⟨hr, hh⟩ := h
  have hr : LocatedAt x.settings x.root := .inr hr
  cases hh with
  | complete h =>
    obtain ⟨cfg, cfgs, h1, h2, h3⟩ := session_objects h
    exact (h3 e he).normal hr h1 h2
  | any h1 h2 h3 h4 =>
    obtain ⟨cfg, cfgs, k1, k2, k3⟩ := Exc.history_objects h1 h2 h3 h4
    exact (k3 e he).normal hr k1 k2

/-- **C101, violated on S3.** With a slash at the end of the store path (or at its beginning, or two in a row, or nothing but white
space), readers see nothing of the dataset: whatever is appended and whatever the server answers, every key that a reader can ask for
has what it had before; in an empty bucket a reader finds no image, at whatever location it looks. -/
theorem s3_slash_violated {w : World} {x : Session} (h : Uploaded w x) (hn : ¬NormalKey x.root) (P : Nat) (srv : Text → Nat → Reply)
    (junk : Bytes) (old : Text → Option Bytes) :
    (∀ k, NormalKey k → (bucketAfter P srv junk old x.events k).object = old k) ∧
    ((∀ k, old k = none) → ∀ loc, NormalKey loc →
      levelsV2 (fun k => (bucketAfter P srv junk old x.events k).object) loc = none ∧
      levelsV3 (fun k => (bucketAfter P srv junk old x.events k).object) loc = none) := by
  have h1 : ∀ k, NormalKey k → (bucketAfter P srv junk old x.events k).object = old k := by
    intro k hk
    have hp : ∀ q, k ≠ x.root ++ '/' :: q := by
      intro q e
      rw [e, normal_append] at hk
      exact hn hk.1
    unfold bucketAfter
    have : ∀ (evs : List Ev), (∀ e ∈ evs, ∃ q, e.path = x.root ++ '/' :: q) → ∀ o, evs.foldl (stepObj P (srv k) junk k) o = o := by
      intro evs hev
      induction evs with
      | nil => intro o; rfl
      | cons a l ih =>
        intro o
        obtain ⟨q, hq⟩ := hev a (by simp)
        rw [List.foldl_cons, show stepObj P (srv k) junk k o a = o from if_pos fun e => hp q (e.symm.trans hq)]
        exact ih (fun e he => hev e (List.mem_cons_of_mem _ he)) o
    unfold objAfter
    rw [this x.events (uploaded_under h)]
  refine ⟨h1, fun ho loc hl => ⟨?_, ?_⟩⟩
  · have e1 : (bucketAfter P srv junk old x.events (loc ++ "/.zgroup".toList)).object = none := by
      rw [show loc ++ "/.zgroup".toList = loc ++ '/' :: ".zgroup".toList from by congr 1]
      exact (h1 _ (normal_append.2 ⟨hl, by decide⟩)).trans (ho _)
    unfold levelsV2 jsonFile
    dsimp only
    rw [e1]
    rfl
  · have e1 : (bucketAfter P srv junk old x.events (loc ++ "/zarr.json".toList)).object = none := by
      rw [show loc ++ "/zarr.json".toList = loc ++ '/' :: "zarr.json".toList from by congr 1]
      exact (h1 _ (normal_append.2 ⟨hl, by decide⟩)).trans (ho _)
    unfold levelsV3 jsonFile
    dsimp only
    rw [e1]
    rfl

/-- Not vacuous: a stream for the store path `a/` sends chunks, to keys below `a//`. -/
example : Uploaded AZ.Sample.world (Sample.uploaded "a/" [[5], [6]]) ∧ ¬NormalKey (Sample.uploaded "a/" [[5], [6]]).root ∧
    Ev.wrote "a//0/0/0/0".toList 0 [5] ∈ (Sample.uploaded "a/" [[5], [6]]).events :=
  ⟨Sample.uploaded_of (by decide) (by decide +kernel), by decide, by decide +kernel⟩

end S3

/-- The file system of the example: only `/data` exists, and can be written to. -/
def Sample.onlyData : FileSystem :=
  ⟨fun x => x = ⟨true, ["data".toList]⟩, fun x => x = ⟨true, ["data".toList]⟩, fun x => x = ⟨true, ["data".toList]⟩⟩

/-- Not vacuous: with only `/data` in the file system, `/data/a` and `/data//a` are accepted. -/
example : (match apiCreate (Sample.world.on Sample.onlyData) Sample.env 9
        (some { Sample.settings1 with storePath := some "/data/a".toList }) with
      | (true, some (.ok _)) => true
      | _ => false) = true ∧
    (match apiCreate (Sample.world.on Sample.onlyData) Sample.env 9
        (some { Sample.settings1 with storePath := some "/data//a".toList }) with
      | (true, some (.ok _)) => true
      | _ => false) = true ∧
    Sample.onlyData.exist (placeOf "/data/a".toList) = false ∧ containing (placeOf "/data//a".toList) = ⟨true, ["data".toList]⟩ ∧
    (∀ l, Sample.onlyData.exist ⟨false, [' '] :: l⟩ = false) ∧ ∀ l, Sample.onlyData.exist ⟨false, "file:".toList :: l⟩ = false :=
  ⟨by decide +kernel, by decide +kernel, by decide, by decide, fun l => by simp [Sample.onlyData], fun l => by simp [Sample.onlyData]⟩

end AZ
