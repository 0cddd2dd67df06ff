import Verif.IO
import Mathlib.Data.Rat.Defs
import Mathlib.Algebra.Order.Ring.Rat

/-!
# Properties of the file loaders: C49, C50, C51, C80

The specification of a text file is the table it was written from: `textOf`
joins the fields of each row by the delimiter and ends every line by a newline.
-/

set_option linter.unusedVariables false
set_option linter.unusedSectionVars false

namespace PC

/-! ### Specification -/

/-- The text of a table. -/
def textOf (d : List Char) (rows : List (List (List Char))) : List Char :=
  rows.flatMap (fun r => d.intercalate r ++ ['\n'])

/-- The fields contain neither newlines nor characters of the delimiter, the
delimiter is not empty and contains no newline, no row is empty. -/
structure CleanTable (d : List Char) (rows : List (List (List Char))) : Prop where
  delim : d ≠ []
  delim_nl : '\n' ∉ d
  row : ∀ r ∈ rows, r ≠ []
  field : ∀ r ∈ rows, ∀ s ∈ r, ∀ c ∈ s, c ∉ d ∧ c ≠ '\n'

/-- The fields read as numbers. -/
def Reads {K : Type*} (num : List Char → Option K) (rows : List (List (List Char))) (vals : List (List K)) :
    Prop :=
  rows.map (fun r => r.map num) = vals.map (fun r => r.map some)

/-! ### Lines and fields -/

theorem fileLines_append (l t : List Char) (h : '\n' ∉ l) :
    fileLines (l ++ '\n' :: t) = (l ++ ['\n']) :: fileLines t := by
  induction l with
  | nil => simp [fileLines]
  | cons c cs ih =>
    have hc : c ≠ '\n' := fun e => h (by simp [e])
    have := ih (fun e => h (List.mem_cons_of_mem _ e))
    simp [fileLines, hc, this]

theorem fileLines_noNl (l : List Char) (h : '\n' ∉ l) (hl : l ≠ []) : fileLines l = [l] := by
  induction l with
  | nil => exact absurd rfl hl
  | cons c cs ih =>
    have hc : c ≠ '\n' := fun e => h (by simp [e])
    rcases cs with _ | ⟨c', cs⟩
    · simp [fileLines, hc]
    · have := ih (fun e => h (List.mem_cons_of_mem _ e)) (by simp)
      rw [fileLines, if_neg hc, this]

theorem fileLines_textOf (d : List Char) (rows : List (List (List Char))) (t : List Char)
    (h : ∀ r ∈ rows, '\n' ∉ d.intercalate r) :
    fileLines (textOf d rows ++ t) = rows.map (fun r => d.intercalate r ++ ['\n']) ++ fileLines t := by
  induction rows with
  | nil => simp [textOf]
  | cons r rs ih =>
    have e : textOf d (r :: rs) ++ t = d.intercalate r ++ '\n' :: (textOf d rs ++ t) := by
      simp [textOf]
    rw [e, fileLines_append _ _ (h r (by simp)), ih (fun r' hr' => h r' (by simp [hr']))]
    simp

theorem splitAux_skip (d u t : List Char) : splitAux d u.length (u ++ t) = splitAux d 0 t := by
  induction u with
  | nil => rfl
  | cons c cs ih => simpa [splitAux] using ih

theorem not_prefix (d : List Char) (hd : d ≠ []) (c : Char) (cs : List Char) (hc : c ∉ d) :
    d.isPrefixOf (c :: cs) = false := by
  rcases d with _ | ⟨a, d⟩
  · exact absurd rfl hd
  · have : a ≠ c := fun e => hc (by simp [e])
    simp [List.isPrefixOf, this]

theorem splitAux_ne_nil (d : List Char) (k : ℕ) (l : List Char) : splitAux d k l ≠ [] := by
  induction l generalizing k with
  | nil => simp [splitAux]
  | cons c cs ih =>
    cases k with
    | succ k => simpa [splitAux] using ih k
    | zero =>
      rw [splitAux]
      split
      · simp
      · split <;> simp

theorem splitAux_field (d s t : List Char) (hd : d ≠ []) (hs : ∀ c ∈ s, c ∉ d) :
    splitAux d 0 (s ++ d ++ t) = s :: splitAux d 0 t := by
  induction s with
  | nil =>
    rcases d with _ | ⟨a, d⟩
    · exact absurd rfl hd
    · have : (a :: d).isPrefixOf (a :: (d ++ t)) = true := by simp
      show splitAux (a :: d) 0 (a :: (d ++ t)) = _
      rw [splitAux, if_pos this]
      exact congrArg _ (splitAux_skip (a :: d) d t)
  | cons c cs ih =>
    have := ih (fun c' h' => hs c' (List.mem_cons_of_mem _ h'))
    show splitAux d 0 (c :: (cs ++ d ++ t)) = _
    rw [splitAux, not_prefix d hd c _ (hs c (by simp)), this]
    rfl

theorem splitAux_last (d s : List Char) (hd : d ≠ []) (hs : ∀ c ∈ s, c ∉ d) :
    splitAux d 0 s = [s] := by
  induction s with
  | nil => simp [splitAux]
  | cons c cs ih =>
    have := ih (fun c' h' => hs c' (List.mem_cons_of_mem _ h'))
    rw [splitAux, not_prefix d hd c _ (hs c (by simp)), this]
    rfl

theorem intercalate_cons_cons {α : Type*} (d a b : List α) (l : List (List α)) :
    d.intercalate (a :: b :: l) = a ++ d ++ d.intercalate (b :: l) := by
  simp [List.intercalate, List.intersperse]

theorem splitAux_intercalate (d : List Char) (hd : d ≠ []) (r : List (List Char)) (hr : r ≠ [])
    (hs : ∀ s ∈ r, ∀ c ∈ s, c ∉ d) : splitAux d 0 (d.intercalate r) = r := by
  induction r with
  | nil => exact absurd rfl hr
  | cons a r ih =>
    rcases r with _ | ⟨b, r⟩
    · simpa [List.intercalate] using splitAux_last d a hd (hs a (by simp))
    · rw [intercalate_cons_cons, splitAux_field d a _ hd (hs a (by simp)),
        ih (by simp) (fun s h' => hs s (List.mem_cons_of_mem _ h'))]

theorem intercalate_noNl (d : List Char) (hd : '\n' ∉ d) (r : List (List Char))
    (hs : ∀ s ∈ r, ∀ c ∈ s, c ≠ '\n') : '\n' ∉ d.intercalate r := by
  induction r with
  | nil => simp [List.intercalate]
  | cons a r ih =>
    have ha : '\n' ∉ a := fun e => hs a (by simp) _ e rfl
    rcases r with _ | ⟨b, r⟩
    · simpa [List.intercalate] using ha
    · rw [intercalate_cons_cons]
      have := ih (fun s h' => hs s (List.mem_cons_of_mem _ h'))
      simp [ha, hd, this]

theorem splitLines_map (d : List Char) (hd : d ≠ []) (ls : List (List Char)) :
    splitLines d ls = .ok (ls.map (fun l => splitAux d 0 l.dropLast)) := by
  induction ls with
  | nil => rfl
  | cons l ls ih => simp [splitLines, pySplit, hd, ih]

theorem splitLines_textOf {d : List Char} {rows : List (List (List Char))} (h : CleanTable d rows) :
    splitLines d (fileLines (textOf d rows)) = .ok rows := by
  have h1 := fileLines_textOf d rows [] (fun r hr => intercalate_noNl d h.delim_nl r
    (fun s hs c hc => (h.field r hr s hs c hc).2))
  rw [List.append_nil] at h1
  rw [h1, splitLines_map d h.delim]
  congr 1
  simp only [fileLines, List.append_nil, List.map_map]
  conv_rhs => rw [← List.map_id rows]
  refine List.map_congr_left (fun r hr => ?_)
  simpa using splitAux_intercalate d h.delim r (h.row r hr) (fun s hs c hc => (h.field r hr s hs c hc).1)

/-! ### Parsing -/

theorem mapM_eq_some {α β : Type*} (f : α → Option β) (l : List α) (v : List β) :
    l.mapM f = some v ↔ l.map f = v.map some := by
  induction l generalizing v with
  | nil => cases v <;> simp
  | cons a l ih =>
    rw [List.mapM_cons]
    rcases hf : f a with _ | b
    · cases v <;> simp [hf]
    · rcases hm : l.mapM f with _ | w
      · have : ∀ v : List β, l.map f ≠ v.map some := fun v e => by
          have := (ih v).2 e; rw [hm] at this; cases this
        cases v with
        | nil => simp
        | cons x xs => simpa [hf] using fun _ => this xs
      · have := (ih w).1 hm
        cases v with
        | nil => simp
        | cons x xs =>
          have hx := ih xs
          rw [hm] at hx
          simp only [Option.some.injEq] at hx
          simp [hf, hx]

theorem parseRows_iff {K : Type*} (num : List Char → Option K) (rows : List (List (List Char)))
    (vals : List (List K)) : parseRows num rows = some vals ↔ Reads num rows vals := by
  unfold parseRows Reads
  induction rows generalizing vals with
  | nil => cases vals <;> simp
  | cons r rs ih =>
    rw [List.mapM_cons]
    cases vals with
    | nil =>
      rcases h1 : r.mapM num with _ | w
      · simp
      · rcases h2 : rs.mapM (fun r => r.mapM num) with _ | ws <;> simp [h2]
    | cons v vs =>
      simp only [List.map_cons, List.cons.injEq, ← ih vs, ← mapM_eq_some]
      rcases h1 : r.mapM num with _ | w
      · simp
      · rcases h2 : rs.mapM (fun r => r.mapM num) with _ | ws <;> simp [h2]

theorem Reads.take {K : Type*} {num : List Char → Option K} {rows : List (List (List Char))}
    {vals : List (List K)} (h : Reads num rows vals) (k : ℕ) :
    Reads num (rows.map (List.take k)) (vals.map (List.take k)) := by
  unfold Reads at *
  have := congrArg (List.map (List.take k)) h
  simpa [List.map_take, Function.comp_def] using this

theorem Reads.drop {K : Type*} {num : List Char → Option K} {rows : List (List (List Char))}
    {vals : List (List K)} (h : Reads num rows vals) (k : ℕ) :
    Reads num (rows.map (List.drop k)) (vals.map (List.drop k)) := by
  unfold Reads at *
  have := congrArg (List.map (List.drop k)) h
  simpa [List.map_drop, Function.comp_def] using this

theorem rectangular_iff {β : Type*} (rows : List (List β)) :
    rectangular rows = true ↔ ∀ r ∈ rows, ∀ r' ∈ rows, r.length = r'.length := by
  cases rows with
  | nil => simp [rectangular]
  | cons a l =>
    simp only [rectangular, List.all_eq_true, List.head?_cons, Option.map_some, Option.getD_some, beq_iff_eq]
    constructor
    · intro h r hr r' hr'
      rw [h r hr, h r' hr']
    · intro h r hr
      exact h r hr a (by simp)

theorem rect_of_width {β : Type*} {rows : List (List β)} (w : ℕ) (h : ∀ r ∈ rows, r.length = w) :
    rectangular rows = true :=
  (rectangular_iff rows).2 (fun r hr r' hr' => by rw [h r hr, h r' hr'])

theorem toNumberTensor_ok {K : Type*} {num : List Char → Option K} {rows : List (List (List Char))}
    {vals : List (List K)} (h : Reads num rows vals) (w : ℕ) (hw : ∀ r ∈ rows, r.length = w) (h0 : 0 < w)
    (hne : rows ≠ []) : toNumberTensor num rows = .ok vals := by
  have h1 : rows.flatten ≠ [] := by
    rcases rows with _ | ⟨r, rs⟩
    · exact absurd rfl hne
    · have : r ≠ [] := fun e => by have := hw r (by simp); rw [e] at this; simp at this; omega
      simp [this]
  unfold toNumberTensor
  rw [if_neg (by rw [rect_of_width w hw]; decide), if_neg h1, (parseRows_iff num rows vals).2 h]

theorem rawFeatures_wide {β : Type*} {rows : List (List β)} {w : ℕ} (hw : ∀ r ∈ rows, r.length = w)
    (h3 : 3 < w) (dim : ℕ) : rawFeatures dim rows = rows.map (List.drop dim) := by
  unfold rawFeatures
  rw [List.filter_eq_self.2]
  intro r hr
  simp [hw r hr, h3]

theorem rawFeatures_narrow {β : Type*} {rows : List (List β)} (hw : ∀ r ∈ rows, r.length ≤ 3)
    (dim : ℕ) : rawFeatures dim rows = [] := by
  unfold rawFeatures
  rw [List.filter_eq_nil_iff.2]
  · rfl
  · intro r hr
    have := hw r hr
    simpa using this

theorem fileLines_ne_nil (t : List Char) : ∀ l ∈ fileLines t, l ≠ [] := by
  induction t with
  | nil => simp [fileLines]
  | cons c cs ih =>
    rw [fileLines]
    split
    · intro l hl
      rcases List.mem_cons.1 hl with rfl | hl
      · simp
      · exact ih l hl
    · split
      · simp
      · rename_i l' ls' he
        intro l hl
        rcases List.mem_cons.1 hl with rfl | hl
        · simp
        · exact ih l (by rw [he]; simp [hl])

theorem fileLines_eq_nil (t : List Char) : fileLines t = [] ↔ t = [] := by
  cases t with
  | nil => simp [fileLines]
  | cons c cs =>
    rw [fileLines]
    split
    · simp
    · split <;> simp

/-- Without a final newline the last character is treated like the newline. -/
theorem fileLines_noFinal (t : List Char) (ht : t ≠ []) (hl : t.getLast ht ≠ '\n') :
    (fileLines t).map List.dropLast = (fileLines (t.dropLast ++ ['\n'])).map List.dropLast := by
  induction t with
  | nil => exact absurd rfl ht
  | cons c cs ih =>
    rcases cs with _ | ⟨c', cs⟩
    · have hc : c ≠ '\n' := by simpa using hl
      simp [fileLines, hc]
    · have ih := ih (by simp) (by simpa using hl)
      generalize hr : c' :: cs = r at *
      have hrne : r ≠ [] := by rw [← hr]; simp
      have e : (c :: r).dropLast ++ ['\n'] = c :: (r.dropLast ++ ['\n']) := by
        rw [← hr]; simp
      rw [e]
      by_cases hc : c = '\n'
      · rw [fileLines, fileLines, if_pos hc, if_pos hc]
        simp [ih]
      · rw [fileLines, fileLines, if_neg hc, if_neg hc]
        rcases h1 : fileLines r with _ | ⟨l, ls⟩
        · exact absurd ((fileLines_eq_nil r).1 h1) hrne
        · rcases h2 : fileLines (r.dropLast ++ ['\n']) with _ | ⟨l', ls'⟩
          · have := (fileLines_eq_nil _).1 h2
            simp at this
          · rw [h1, h2] at ih
            simp only [List.map_cons, List.cons.injEq] at ih ⊢
            have n1 := fileLines_ne_nil r l (by rw [h1]; simp)
            have n2 := fileLines_ne_nil _ l' (by rw [h2]; simp)
            refine ⟨?_, ih.2⟩
            rw [List.dropLast_cons_of_ne_nil n1, List.dropLast_cons_of_ne_nil n2, ih.1]

/-! ### C49 -/

/-- **C49.** A table with at least one feature column and more than three
columns, every line ended by a newline, is read exactly: one row per line, the
first `dim` numbers are the point, the others the feature.  The delimiter may
be any string.  What is missing for the full claim: files without final newline
and files with at most three columns or without features, see
`C49_no_final_newline`, `C49_no_features_raises`. -/
theorem C49_table_partial {K : Type*} (fs : String → Option (List Char)) (num : List Char → Option K)
    (s : String) (d : List Char) (dim w : ℕ) (rows : List (List (List Char))) (vals : List (List K))
    (hc : CleanTable d rows) (hw : ∀ r ∈ rows, r.length = w) (hne : rows ≠ []) (h3 : 3 < w) (h0 : 0 < dim)
    (hd : dim < w) (hv : Reads num rows vals) (hf : fs s = some (textOf d rows)) :
    loadTensor fs num (.str s) d dim = .ok (vals.map (List.take dim), vals.map (List.drop dim)) := by
  unfold loadTensor openFile
  simp only [hf, splitLines_textOf hc, rawFeatures_wide hw h3]
  have w1 : ∀ r ∈ rawPoints dim rows, r.length = dim := by
    intro r hr
    obtain ⟨r', hr', rfl⟩ := List.mem_map.1 hr
    rw [List.length_take, hw r' hr']; omega
  have w2 : ∀ r ∈ rows.map (List.drop dim), r.length = w - dim := by
    intro r hr
    obtain ⟨r', hr', rfl⟩ := List.mem_map.1 hr
    rw [List.length_drop, hw r' hr']
  rw [if_neg (by rw [rect_of_width _ w1]; decide), if_neg (by rw [rect_of_width _ w2]; decide),
    toNumberTensor_ok (rows := rawPoints dim rows) (hv.take dim) dim w1 h0 (by simpa [rawPoints] using hne),
    toNumberTensor_ok (hv.drop dim) (w - dim) w2 (by omega) (by simpa using hne)]

/-- **C49, final newline.** Without a final newline the last character of the
file is lost: the result is that for the file whose last character is replaced
by a newline. -/
theorem C49_no_final_newline {K : Type*} (fs fs' : String → Option (List Char)) (num : List Char → Option K)
    (s : String) (d : List Char) (dim : ℕ) (t : List Char) (ht : t ≠ []) (hl : t.getLast ht ≠ '\n')
    (h1 : fs s = some t) (h2 : fs' s = some (t.dropLast ++ ['\n'])) :
    loadTensor fs num (.str s) d dim = loadTensor fs' num (.str s) d dim := by
  have e : splitLines d (fileLines t) = splitLines d (fileLines (t.dropLast ++ ['\n'])) := by
    by_cases hd : d = []
    · have key : ∀ ls : List (List Char), ls ≠ [] → splitLines d ls = .error .valueError := by
        intro ls hls
        rcases ls with _ | ⟨l, ls⟩
        · exact absurd rfl hls
        · simp [splitLines, pySplit, hd]
      rw [key _ (fun e => ht ((fileLines_eq_nil _).1 e)),
        key _ (fun e => by have := (fileLines_eq_nil _).1 e; simp at this)]
    · have := congrArg (List.map (splitAux d 0)) (fileLines_noFinal t ht hl)
      simp only [List.map_map] at this
      rw [splitLines_map d hd, splitLines_map d hd]
      exact congrArg _ this
  unfold loadTensor openFile
  simp only [h1, h2, e]

/-- **C49, files without features.** If no line has more than `max 3 dim`
fields, in particular for every file with three columns and `dimension=3`, the
loader raises. -/
theorem C49_no_features_raises {K : Type*} (fs : String → Option (List Char)) (num : List Char → Option K)
    (s : String) (d : List Char) (dim : ℕ) (t : List Char) (ht : fs s = some t)
    (h : ∀ rows, splitLines d (fileLines t) = .ok rows → ∀ r ∈ rows, r.length ≤ max 3 dim) :
    ∃ e, loadTensor fs num (.str s) d dim = .error e := by
  unfold loadTensor openFile
  simp only [ht]
  rcases hs : splitLines d (fileLines t) with e | rows
  · exact ⟨e, rfl⟩
  · dsimp only
    split
    · exact ⟨_, rfl⟩
    · split
      · exact ⟨_, rfl⟩
      · rename_i hrect
        have hflat : (rawFeatures dim rows).flatten = [] := by
          rw [List.flatten_eq_nil_iff]
          intro l hl
          obtain ⟨r, hr, rfl⟩ := List.mem_map.1 hl
          obtain ⟨hr1, hr2⟩ := List.mem_filter.1 hr
          have := h rows hs r hr1
          simp only [decide_eq_true_eq] at hr2
          rw [List.drop_eq_nil_iff]
          omega
        have : toNumberTensor num (rawFeatures dim rows) = .error .invalidArgument := by
          unfold toNumberTensor
          rw [if_neg hrect, if_pos hflat]
        split
        · exact ⟨_, rfl⟩
        · rw [this]; exact ⟨_, rfl⟩

/-- A decimal number parser, for the concrete cases. -/
def decNum (s : List Char) : Option ℕ :=
  if s = [] ∨ s.all (fun c => '0' ≤ c && c ≤ '9') = false then none
  else some (s.foldl (fun a c => 10 * a + (c.toNat - '0'.toNat)) 0)

/-- A file system with one file. -/
def oneFile (t : String) : String → Option (List Char) := fun s => if s = "f" then some t.toList else none

/-- The hypotheses of `C49_table_partial` hold for a file with two lines and a
delimiter of two characters. -/
example : CleanTable [',', ' '] [[['1'], ['2'], ['3'], ['4', '5']], [['6'], ['7'], ['8'], ['9']]] :=
  ⟨by decide, by decide, by decide, by decide⟩

example : loadTensor (oneFile "1, 2, 3, 45\n6, 7, 8, 9\n") decNum (.str "f") [',', ' '] 3 =
    .ok ([[1, 2, 3], [6, 7, 8]], [[45], [9]]) := by decide

/-- **C49 fails** without a final newline: the last digit is lost. -/
theorem C49_final_newline_false :
    ¬ ∀ (fs : String → Option (List Char)) (num : List Char → Option ℕ) (s : String) (d : List Char)
      (dim w : ℕ) (rows : List (List (List Char))) (vals : List (List ℕ)),
      CleanTable d rows → (∀ r ∈ rows, r.length = w) → rows ≠ [] → 3 < w → 0 < dim → dim < w →
      Reads num rows vals → fs s = some (textOf d rows).dropLast →
      loadTensor fs num (.str s) d dim = .ok (vals.map (List.take dim), vals.map (List.drop dim)) := by
  intro h
  have := h (oneFile "1,2,3,45") decNum "f" [','] 3 4 [[['1'], ['2'], ['3'], ['4', '5']]] [[1, 2, 3, 45]]
    ⟨by decide, by decide, by decide, by decide⟩ (by decide) (by decide) (by decide) (by decide) (by decide)
    (by unfold Reads; decide) (by decide)
  revert this
  decide

/-- **C49 fails** for files with three columns: points without features
(`dimension=3`) and planar points with one feature (`dimension=2`). -/
theorem C49_three_columns_false :
    ¬ ∀ (fs : String → Option (List Char)) (num : List Char → Option ℕ) (s : String) (d : List Char)
      (dim w : ℕ) (rows : List (List (List Char))) (vals : List (List ℕ)),
      CleanTable d rows → (∀ r ∈ rows, r.length = w) → rows ≠ [] → 0 < dim → dim < w →
      Reads num rows vals → fs s = some (textOf d rows) →
      loadTensor fs num (.str s) d dim = .ok (vals.map (List.take dim), vals.map (List.drop dim)) := by
  intro h
  have := h (oneFile "1,2,3\n") decNum "f" [','] 2 3 [[['1'], ['2'], ['3']]] [[1, 2, 3]]
    ⟨by decide, by decide, by decide, by decide⟩ (by decide) (by decide) (by decide) (by decide)
    (by unfold Reads; decide) (by decide)
  revert this
  decide

/-- **C49, features of some lines only.** Lines with three fields have no
feature row, so the rows of points and features need not correspond: here two
points and one feature. -/
theorem C49_rows_misaligned :
    loadTensor (oneFile "1,2,3\n4,5,6,7\n") decNum (.str "f") [','] 3 = .ok ([[1, 2, 3], [4, 5, 6]], [[7]]) := by
  decide

/-- **C49, argument checks.** -/
theorem C49_bad_path {K : Type*} (fs : String → Option (List Char)) (num : List Char → Option K)
    (d : List Char) (dim : ℕ) :
    loadTensor fs num .other d dim = .error .typeError ∧
      ∀ s, fs s = none → loadTensor fs num (.str s) d dim = .error .fileNotFound := by
  refine ⟨rfl, fun s hs => ?_⟩
  unfold loadTensor openFile
  simp only [hs]

/-! ### C50 -/

theorem limitLines_some (m : ℤ) (i : ℤ) (ls : List (List Char)) :
    limitLines (some m) i ls = ls.take (m - i).toNat := by
  induction ls generalizing i with
  | nil => simp [limitLines]
  | cons l ls ih =>
    simp only [limitLines]
    split
    · rename_i h
      rw [ih, show (m - i).toNat = (m - (i + 1)).toNat + 1 by omega]
      rfl
    · rename_i h
      rw [show (m - i).toNat = 0 by omega]
      rfl

/-- **C50, without a limit** the numpy loader reads nothing: the arrays are empty
for every file. -/
theorem C50_no_limit_empty {K : Type*} (fs : String → Option (List Char)) (num : List Char → Option K)
    (s : String) (d : List Char) (dim : ℕ) (t : List Char) (ht : fs s = some t) :
    loadNumpy fs num (.str s) d dim none = .ok ([], []) := by
  unfold loadNumpy openFile
  have : limitLines none 0 (fileLines t) = [] := by
    cases fileLines t <;> rfl
  simp only [ht, this]
  rfl

theorem toNumpy_ok {K : Type*} {num : List Char → Option K} {rows : List (List (List Char))}
    {vals : List (List K)} (h : Reads num rows vals) (w : ℕ) (hw : ∀ r ∈ rows, r.length = w) :
    toNumpy num rows = .ok vals := by
  unfold toNumpy
  rw [if_neg (by rw [rect_of_width w hw]; decide), (parseRows_iff num rows vals).2 h]

/-- **C50, with a limit `m`** the first `m` lines of a table are read, all of
them if there are fewer.  (Features of tables with at most three columns are
dropped.)  What is missing for the full claim is the case without a limit,
`C50_no_limit_empty`. -/
theorem C50_limit_partial {K : Type*} (fs : String → Option (List Char)) (num : List Char → Option K)
    (s : String) (d : List Char) (dim w m : ℕ) (rows : List (List (List Char))) (vals : List (List K))
    (hc : CleanTable d rows) (hw : ∀ r ∈ rows, r.length = w)
    (hv : Reads num rows vals) (hf : fs s = some (textOf d rows)) :
    loadNumpy fs num (.str s) d dim (some m) =
      .ok ((vals.take m).map (List.take dim), if 3 < w then (vals.take m).map (List.drop dim) else []) := by
  have hvm : Reads num (rows.take m) (vals.take m) := by
    unfold Reads at *
    rw [List.map_take, List.map_take, hv]
  have hwm : ∀ r ∈ rows.take m, r.length = w := fun r hr => hw r (List.mem_of_mem_take hr)
  have hs : splitLines d (limitLines (some (m : ℤ)) 0 (fileLines (textOf d rows))) = .ok (rows.take m) := by
    have h1 := splitLines_textOf hc
    rw [splitLines_map d hc.delim] at h1 ⊢
    rw [limitLines_some, show ((m : ℤ) - 0).toNat = m by simp, List.map_take]
    injection h1 with h1
    rw [h1]
  unfold loadNumpy openFile
  simp only [hf, hs]
  have w1 : ∀ r ∈ rawPoints dim (rows.take m), r.length = min dim w := by
    intro r hr
    obtain ⟨r', hr', rfl⟩ := List.mem_map.1 hr
    rw [List.length_take, hwm r' hr']
  rw [toNumpy_ok (rows := rawPoints dim (rows.take m)) (hvm.take dim) _ w1]
  dsimp only
  by_cases h3 : 3 < w
  · rw [if_pos h3]
    rw [rawFeatures_wide hwm h3]
    have w2 : ∀ r ∈ (rows.take m).map (List.drop dim), r.length = w - dim := by
      intro r hr
      obtain ⟨r', hr', rfl⟩ := List.mem_map.1 hr
      rw [List.length_drop, hwm r' hr']
    rw [toNumpy_ok (hvm.drop dim) _ w2]
  · rw [if_neg h3, rawFeatures_narrow (fun r hr => by rw [hwm r hr]; omega)]
    rfl

example : loadNumpy (oneFile "1,2,3,45\n6,7,8,9\n") decNum (.str "f") [','] 3 (some 1) =
    .ok ([[1, 2, 3]], [[45]]) := by decide

/-- **C50 fails**: without a limit not all lines are read. -/
theorem C50_unlimited_false :
    ¬ ∀ (fs : String → Option (List Char)) (num : List Char → Option ℕ) (s : String) (d : List Char)
      (dim w : ℕ) (rows : List (List (List Char))) (vals : List (List ℕ)),
      CleanTable d rows → (∀ r ∈ rows, r.length = w) → 3 < w → Reads num rows vals →
      fs s = some (textOf d rows) →
      loadNumpy fs num (.str s) d dim none = .ok (vals.map (List.take dim), vals.map (List.drop dim)) := by
  intro h
  have := h (oneFile "1,2,3,45\n") decNum "f" [','] 3 4 [[['1'], ['2'], ['3'], ['4', '5']]] [[1, 2, 3, 45]]
    ⟨by decide, by decide, by decide, by decide⟩ (by decide) (by decide) (by unfold Reads; decide) (by decide)
  revert this
  decide

end PC
