import Mathlib.Data.List.Sort
import Mathlib.Data.List.FinRange
import Mathlib.Data.Finset.Lattice.Fold
import Mathlib.Data.Fintype.Basic
import Mathlib.Algebra.Order.Field.Basic
import Mathlib.Algebra.BigOperators.Group.Finset.Basic
import Mathlib.Algebra.BigOperators.Fin
import Mathlib.Algebra.Order.Floor.Ring
import Mathlib.Tactic.Linarith
import Mathlib.Tactic.Ring

/-!
# TensorFlow primitives used by the point cloud library

A tensor of static leading size `n` is a function on `Fin n`; a tensor of
data-dependent length is a list.  Everything here is the documented behaviour
of a TensorFlow primitive (trusted base), plus its basic lemmas.
-/

set_option linter.unusedVariables false

namespace PC

/-- Errors raised by the library or by TensorFlow. -/
inductive Err
  | valueError
  | indexError
  | typeError
  | assertionError
  | keyError
  | fileNotFound
  | attributeError
  | invalidArgument   -- TensorFlow `InvalidArgumentError`
  deriving DecidableEq, Repr

/-- The device on which a TensorFlow op runs.  `gather_nd` documents:
"On CPU, if an out of bound index is found, an error is returned. On GPU, if
an out of bound index is found, a 0 is stored"; `unsorted_segment_*`
documents an error on CPU and dropped rows on GPU. -/
inductive Device
  | cpu
  | gpu
  deriving DecidableEq, Repr

section Argsort
variable {n : ℕ}

/-- `tf.argsort` as list of indices: a stable sort of `0..n-1` by the
relation `r` ("`i` may come before `j`"). -/
def argsortList (r : Fin n → Fin n → Prop) [DecidableRel r] : List (Fin n) :=
  (List.finRange n).insertionSort r

theorem argsortList_perm (r : Fin n → Fin n → Prop) [DecidableRel r] :
    (argsortList r).Perm (List.finRange n) :=
  List.perm_insertionSort r _

theorem argsortList_length (r : Fin n → Fin n → Prop) [DecidableRel r] :
    (argsortList r).length = n := by
  simp [(argsortList_perm r).length_eq]

theorem argsortList_nodup (r : Fin n → Fin n → Prop) [DecidableRel r] :
    (argsortList r).Nodup :=
  (argsortList_perm r).nodup_iff.mpr (List.nodup_finRange n)

theorem mem_argsortList (r : Fin n → Fin n → Prop) [DecidableRel r] (i : Fin n) :
    i ∈ argsortList r :=
  (argsortList_perm r).mem_iff.mpr (List.mem_finRange i)

/-- Stable order: related, and ties are broken by the original position. -/
def StableLT (r : Fin n → Fin n → Prop) (i j : Fin n) : Prop :=
  r i j ∧ (r j i → i < j)

theorem orderedInsert_stable (r : Fin n → Fin n → Prop) [DecidableRel r]
    (htot : ∀ i j, r i j ∨ r j i) (htr : ∀ i j k, r i j → r j k → r i k)
    (a : Fin n) : ∀ l : List (Fin n), (∀ b ∈ l, a < b) →
    l.Pairwise (StableLT r) → (l.orderedInsert r a).Pairwise (StableLT r)
  | [], _, _ => by simp
  | b :: l, hlt, hp => by
    rw [List.orderedInsert]
    rw [List.pairwise_cons] at hp
    split
    · rename_i hab
      refine List.pairwise_cons.mpr ⟨?_, List.pairwise_cons.mpr hp⟩
      intro c hc
      refine ⟨?_, fun _ => hlt c hc⟩
      rcases List.mem_cons.mp hc with rfl | hc
      · exact hab
      · exact htr _ _ _ hab (hp.1 c hc).1
    · rename_i hab
      refine List.pairwise_cons.mpr ⟨?_, orderedInsert_stable r htot htr a l
        (fun c hc => hlt c (List.mem_cons_of_mem _ hc)) hp.2⟩
      intro c hc
      rcases List.mem_orderedInsert r |>.mp hc with rfl | hc
      · exact ⟨(htot _ _).resolve_left hab, fun h => absurd h hab⟩
      · exact hp.1 c hc

theorem insertionSort_stable (r : Fin n → Fin n → Prop) [DecidableRel r]
    (htot : ∀ i j, r i j ∨ r j i) (htr : ∀ i j k, r i j → r j k → r i k) :
    ∀ l : List (Fin n), l.Pairwise (· < ·) →
      (l.insertionSort r).Pairwise (StableLT r)
  | [], _ => by simp
  | a :: l, h => by
    rw [List.pairwise_cons] at h
    refine orderedInsert_stable r htot htr a _ ?_
      (insertionSort_stable r htot htr l h.2)
    intro b hb
    exact h.1 b ((List.perm_insertionSort r l).mem_iff.mp hb)

theorem argsortList_stable (r : Fin n → Fin n → Prop) [DecidableRel r]
    (htot : ∀ i j, r i j ∨ r j i) (htr : ∀ i j k, r i j → r j k → r i k) :
    (argsortList r).Pairwise (StableLT r) :=
  insertionSort_stable r htot htr _ (List.pairwise_lt_finRange n)

/-- `tf.argsort` as a permutation of the index set.  `argsort r k` is the
index of the element placed at position `k`; the inverse is
`tf.math.invert_permutation`. -/
def argsort (r : Fin n → Fin n → Prop) [DecidableRel r] : Equiv.Perm (Fin n) where
  toFun k := (argsortList r)[k.val]'(by rw [argsortList_length]; exact k.isLt)
  invFun i := ⟨(argsortList r).idxOf i, by
    have := List.idxOf_lt_length_of_mem (mem_argsortList r i)
    rwa [argsortList_length] at this⟩
  left_inv k := by
    apply Fin.ext
    exact (argsortList_nodup r).idxOf_getElem _ _
  right_inv i := by simp

theorem argsort_stable (r : Fin n → Fin n → Prop) [DecidableRel r]
    (htot : ∀ i j, r i j ∨ r j i) (htr : ∀ i j k, r i j → r j k → r i k)
    {k l : Fin n} (h : k < l) : StableLT r (argsort r k) (argsort r l) := by
  have := argsortList_stable r htot htr
  rw [List.pairwise_iff_getElem] at this
  exact this k.val l.val _ _ h

/-- `tf.argsort(keys)` (ascending). -/
def argsortAsc {α : Type*} [LinearOrder α] (key : Fin n → α) : Equiv.Perm (Fin n) :=
  argsort (fun i j => key i ≤ key j)

/-- `tf.argsort(keys, direction='DESCENDING')`. -/
def argsortDesc {α : Type*} [LinearOrder α] (key : Fin n → α) : Equiv.Perm (Fin n) :=
  argsort (fun i j => key j ≤ key i)

variable {α : Type*} [LinearOrder α]

theorem argsortAsc_le (key : Fin n → α) {k l : Fin n} (h : k ≤ l) :
    key (argsortAsc key k) ≤ key (argsortAsc key l) := by
  rcases eq_or_lt_of_le h with rfl | h
  · exact le_rfl
  · exact (argsort_stable (fun i j => key i ≤ key j) (fun i j => le_total _ _)
      (fun i j k => le_trans) h).1

theorem argsortAsc_tie (key : Fin n → α) {k l : Fin n} (h : k < l)
    (he : key (argsortAsc key k) = key (argsortAsc key l)) :
    argsortAsc key k < argsortAsc key l :=
  (argsort_stable (fun i j => key i ≤ key j) (fun i j => le_total _ _)
      (fun i j k => le_trans) h).2 he.ge

theorem argsortDesc_le (key : Fin n → α) {k l : Fin n} (h : k ≤ l) :
    key (argsortDesc key l) ≤ key (argsortDesc key k) := by
  rcases eq_or_lt_of_le h with rfl | h
  · exact le_rfl
  · exact (argsort_stable (fun i j => key j ≤ key i) (fun i j => le_total _ _)
      (fun i j k h1 h2 => le_trans h2 h1) h).1

theorem argsortDesc_tie (key : Fin n → α) {k l : Fin n} (h : k < l)
    (he : key (argsortDesc key k) = key (argsortDesc key l)) :
    argsortDesc key k < argsortDesc key l :=
  (argsort_stable (fun i j => key j ≤ key i) (fun i j => le_total _ _)
      (fun i j k h1 h2 => le_trans h2 h1) h).2 he.le

end Argsort

section Segments
variable {n : ℕ} {α : Type*}

/-- The rows of segment `s`. -/
def segRows (ids : Fin n → ℕ) (s : ℕ) : Finset (Fin n) :=
  Finset.univ.filter (fun i => ids i = s)

@[simp] theorem mem_segRows {ids : Fin n → ℕ} {s : ℕ} {i : Fin n} :
    i ∈ segRows ids s ↔ ids i = s := by
  simp [segRows]

/-- `tf.math.unsorted_segment_min` at segment `s`; `none` stands for the
largest value of the dtype, which TensorFlow stores for empty segments. -/
def segMin [LinearOrder α] (x : Fin n → α) (ids : Fin n → ℕ) (s : ℕ) : Option α :=
  if h : (segRows ids s).Nonempty then some ((segRows ids s).inf' h x) else none

/-- `tf.math.unsorted_segment_max` at segment `s`; `none` stands for the
smallest value of the dtype. -/
def segMax [LinearOrder α] (x : Fin n → α) (ids : Fin n → ℕ) (s : ℕ) : Option α :=
  if h : (segRows ids s).Nonempty then some ((segRows ids s).sup' h x) else none

/-- `tf.math.unsorted_segment_sum` at segment `s`. -/
def segSum [AddCommMonoid α] (x : Fin n → α) (ids : Fin n → ℕ) (s : ℕ) : α :=
  ∑ i ∈ segRows ids s, x i

/-- `tf.math.unsorted_segment_mean` at segment `s` (0 for empty segments:
TensorFlow divides by `max(count, 1)`). -/
def segMean [Field α] (x : Fin n → α) (ids : Fin n → ℕ) (s : ℕ) : α :=
  (∑ i ∈ segRows ids s, x i) / ((max (segRows ids s).card 1 : ℕ) : α)

theorem segRows_nonempty {ids : Fin n → ℕ} (i : Fin n) : (segRows ids (ids i)).Nonempty :=
  ⟨i, by simp⟩

theorem segMin_eq_none [LinearOrder α] {x : Fin n → α} {ids : Fin n → ℕ} {s : ℕ} :
    segMin x ids s = none ↔ ∀ i, ids i ≠ s := by
  unfold segMin
  split
  · rename_i h
    obtain ⟨i, hi⟩ := h
    simp only [mem_segRows] at hi
    simp only [reduceCtorEq, false_iff, not_forall, not_not]
    exact ⟨i, hi⟩
  · rename_i h
    rw [Finset.not_nonempty_iff_eq_empty] at h
    simp only [true_iff]
    intro i hi
    have : i ∈ segRows ids s := by simp [hi]
    simp [h] at this

theorem segMax_eq_none [LinearOrder α] {x : Fin n → α} {ids : Fin n → ℕ} {s : ℕ} :
    segMax x ids s = none ↔ ∀ i, ids i ≠ s := by
  unfold segMax
  split
  · rename_i h
    obtain ⟨i, hi⟩ := h
    simp only [mem_segRows] at hi
    simp only [reduceCtorEq, false_iff, not_forall, not_not]
    exact ⟨i, hi⟩
  · rename_i h
    rw [Finset.not_nonempty_iff_eq_empty] at h
    simp only [true_iff]
    intro i hi
    have : i ∈ segRows ids s := by simp [hi]
    simp [h] at this

theorem segMin_eq_some [LinearOrder α] {x : Fin n → α} {ids : Fin n → ℕ} {s : ℕ} {v : α} :
    segMin x ids s = some v ↔ (∃ i, ids i = s ∧ x i = v) ∧ ∀ i, ids i = s → v ≤ x i := by
  unfold segMin
  constructor
  · intro h
    split at h
    · rename_i hne
      simp only [Option.some.injEq] at h
      subst h
      constructor
      · obtain ⟨i, hi, hv⟩ := Finset.exists_mem_eq_inf' hne x
        exact ⟨i, by simpa using hi, hv.symm⟩
      · intro i hi
        exact Finset.inf'_le _ (by simpa using hi)
    · simp at h
  · rintro ⟨⟨i, hi, rfl⟩, hle⟩
    have hne : (segRows ids s).Nonempty := ⟨i, by simpa using hi⟩
    rw [dif_pos hne]
    congr 1
    apply le_antisymm
    · exact Finset.inf'_le _ (by simpa using hi)
    · exact Finset.le_inf' _ _ (fun j hj => hle j (by simpa using hj))

theorem segMax_eq_some [LinearOrder α] {x : Fin n → α} {ids : Fin n → ℕ} {s : ℕ} {v : α} :
    segMax x ids s = some v ↔ (∃ i, ids i = s ∧ x i = v) ∧ ∀ i, ids i = s → x i ≤ v := by
  unfold segMax
  constructor
  · intro h
    split at h
    · rename_i hne
      simp only [Option.some.injEq] at h
      subst h
      constructor
      · obtain ⟨i, hi, hv⟩ := Finset.exists_mem_eq_sup' hne x
        exact ⟨i, by simpa using hi, hv.symm⟩
      · intro i hi
        exact Finset.le_sup' _ (by simpa using hi)
    · simp at h
  · rintro ⟨⟨i, hi, rfl⟩, hle⟩
    have hne : (segRows ids s).Nonempty := ⟨i, by simpa using hi⟩
    rw [dif_pos hne]
    congr 1
    apply le_antisymm
    · exact Finset.sup'_le _ _ (fun j hj => hle j (by simpa using hj))
    · exact Finset.le_sup' _ (by simpa using hi)

end Segments

section Lists

/-- `tf.repeat(tf.range(0, len sizes), sizes)`. -/
def repeatRange (sizes : List ℕ) : List ℕ :=
  (sizes.zipIdx).flatMap (fun p => List.replicate p.1 p.2)

/-- Running totals `[l₀, l₀+l₁, ...]` (inclusive prefix sums). -/
def cumEnds : List ℕ → ℕ → List ℕ
  | [], _ => []
  | a :: l, acc => (acc + a) :: cumEnds l (acc + a)

theorem cumEnds_length (l : List ℕ) (acc : ℕ) : (cumEnds l acc).length = l.length := by
  induction l generalizing acc with
  | nil => rfl
  | cons a l ih => simp [cumEnds, ih]

theorem cumEnds_getElem (l : List ℕ) (acc i : ℕ) (h : i < (cumEnds l acc).length) :
    (cumEnds l acc)[i] = acc + (l.take (i + 1)).sum := by
  induction l generalizing acc i with
  | nil => simp [cumEnds] at h
  | cons a l ih =>
    cases i with
    | zero => simp [cumEnds]
    | succ i =>
      simp only [cumEnds, List.getElem_cons_succ, List.take_succ_cons, List.sum_cons]
      rw [ih]
      omega

end Lists

end PC
