import Verif.PointCloud
import Mathlib.Data.List.Perm.Basic
import Mathlib.Algebra.BigOperators.Group.List.Basic
import Mathlib.Data.List.Dedup
import Mathlib.Data.List.OfFn

/-! Helper lemmas about the point cloud model. -/

set_option linter.unusedVariables false

namespace PC

section ArgsortBatch
variable {n : ℕ}

theorem ofFn_argsort (r : Fin n → Fin n → Prop) [DecidableRel r] :
    List.ofFn (argsort r) = argsortList r := by
  apply List.ext_getElem
  · simp [argsortList_length]
  · intro i h1 h2
    simp [argsort]

/-- Stable sorting by small keys concatenates the key classes. -/
theorem argsortAsc_flatMap (ids : Fin n → ℕ) (B : ℕ) (h : ∀ i, ids i < B) :
    List.ofFn (argsortAsc ids) =
      (List.range B).flatMap (fun b => (List.finRange n).filter (fun i => ids i = b)) := by
  unfold argsortAsc
  rw [ofFn_argsort]
  have hs := argsortList_stable (fun i j => ids i ≤ ids j) (fun i j => le_total _ _)
    (fun i j k => le_trans)
  have hp2 : ((List.range B).flatMap
      (fun b => (List.finRange n).filter (fun i => ids i = b))).Pairwise
        (StableLT (fun i j => ids i ≤ ids j)) := by
    rw [List.pairwise_flatMap]
    constructor
    · intro b _
      apply List.Pairwise.imp_of_mem _ ((List.pairwise_lt_finRange n).filter _)
      intro i j hi hj hij
      simp only [List.mem_filter, List.mem_finRange, true_and, decide_eq_true_eq] at hi hj
      exact ⟨by simp [hi, hj], fun _ => hij⟩
    · apply List.Pairwise.imp_of_mem _ (List.pairwise_lt_range (n := B))
      intro a b _ _ hab i hi j hj
      simp only [List.mem_filter, List.mem_finRange, true_and, decide_eq_true_eq] at hi hj
      subst hi; subst hj
      exact ⟨le_of_lt hab, fun hh => absurd hh (not_le.mpr hab)⟩
  refine List.Perm.eq_of_pairwise ?_ hs hp2 ?_
  · intro i j _ _ hij hji
    exact absurd (hij.2 hji.1) (not_lt.mpr (le_of_lt (hji.2 hij.1)))
  · rw [List.perm_ext_iff_of_nodup (argsortList_nodup _)]
    · intro i
      simp [mem_argsortList, h i]
    · apply hp2.imp
      rintro i j hij rfl
      exact absurd (hij.2 hij.1) (lt_irrefl _)

end ArgsortBatch

/-! ### sizes -/

theorem mem_uniqueWithCounts (ids : List ℕ) (p : ℕ × ℕ) :
    p ∈ uniqueWithCounts ids ↔ p.1 ∈ ids ∧ p.2 = ids.count p.1 := by
  obtain ⟨a, b⟩ := p
  simp only [uniqueWithCounts, List.mem_map, List.mem_reverse, List.mem_dedup, Prod.mk.injEq]
  constructor
  · rintro ⟨x, hx, rfl, rfl⟩; exact ⟨hx, rfl⟩
  · rintro ⟨hx, rfl⟩; exact ⟨a, hx, rfl, rfl⟩

theorem nodup_uniqueWithCounts (ids : List ℕ) : (uniqueWithCounts ids).Nodup := by
  unfold uniqueWithCounts
  refine (List.nodup_map_iff_inj_on ?_).mpr ?_
  · exact List.nodup_reverse.mpr (List.nodup_dedup _)
  · intro a _ b _ h
    exact (Prod.mk.inj h).1

/-- `get_sizes` lists the counts of the ids that occur, in increasing order of id. -/
theorem sizesOfIds_eq (ids : List ℕ) (B : ℕ) (h : ∀ i ∈ ids, i < B) :
    sizesOfIds ids = ((List.range B).filter (fun b => b ∈ ids)).map (fun b => ids.count b) := by
  have key : (uniqueWithCounts ids).insertionSort (fun a b => a.1 ≤ b.1) =
      ((List.range B).filter (fun b => b ∈ ids)).map (fun b => (b, ids.count b)) := by
    have : Std.Total (fun a b : ℕ × ℕ => a.1 ≤ b.1) := ⟨fun a b => le_total _ _⟩
    have : IsTrans (ℕ × ℕ) (fun a b => a.1 ≤ b.1) := ⟨fun a b c => le_trans⟩
    refine List.Perm.eq_of_pairwise (le := fun a b => a.1 ≤ b.1) ?_ (List.pairwise_insertionSort _ _) ?_ ?_
    · rintro ⟨a1, a2⟩ ⟨b1, b2⟩ ha hb h1 h2
      have ha := (List.perm_insertionSort _ _).mem_iff.mp ha
      rw [mem_uniqueWithCounts] at ha
      simp only [List.mem_map, List.mem_filter, Prod.mk.injEq] at hb
      obtain ⟨x, hx, rfl, rfl⟩ := hb
      have : a1 = x := le_antisymm h1 h2
      subst this
      simp only at ha
      rw [ha.2]
    · rw [List.pairwise_map]
      exact ((List.pairwise_lt_range (n := B)).filter _).imp (fun h => le_of_lt h)
    · refine (List.perm_insertionSort _ _).trans ?_
      rw [List.perm_ext_iff_of_nodup (nodup_uniqueWithCounts ids)]
      · rintro ⟨a, b⟩
        rw [mem_uniqueWithCounts]
        simp only [List.mem_map, List.mem_filter, List.mem_range, decide_eq_true_eq, Prod.mk.injEq]
        constructor
        · rintro ⟨h1, h2⟩; exact ⟨a, ⟨h a h1, h1⟩, rfl, h2.symm⟩
        · rintro ⟨x, ⟨_, h2⟩, rfl, rfl⟩; exact ⟨h2, rfl⟩
      · refine (List.nodup_map_iff_inj_on ?_).mpr ?_
        · exact List.nodup_range.filter _
        · intro a _ b _ h
          exact (Prod.mk.inj h).1
  unfold sizesOfIds
  rw [key, List.map_map]
  rfl

theorem count_ofFn_eq {n : ℕ} (f : Fin n → ℕ) (b : ℕ) :
    (List.ofFn f).count b = ((List.finRange n).filter (fun i => f i = b)).length := by
  rw [List.ofFn_eq_map, List.count_eq_countP, List.countP_map, List.countP_eq_length_filter]
  congr 1

theorem card_filter_eq {n : ℕ} (p : Fin n → Prop) [DecidablePred p] :
    (Finset.univ.filter p).card = ((List.finRange n).filter (fun i => p i)).length := by
  rw [← List.toFinset_card_of_nodup ((List.nodup_finRange n).filter _)]
  congr 1
  ext i
  simp

/-- Ids that do not occur contribute nothing to the sum of counts. -/
theorem sum_map_filter_mem (ids l : List ℕ) :
    (l.map (fun b => ids.count b)).sum =
      ((l.filter (fun b => b ∈ ids)).map (fun b => ids.count b)).sum := by
  induction l with
  | nil => rfl
  | cons a l ih =>
    by_cases h : a ∈ ids
    · simp [h, ih]
    · simp [h, ih, List.count_eq_zero_of_not_mem h]

/-! ### scatter / flatten -/

theorem scatterRows_flatten {α : Type*} [Zero α] (V : ℕ) (Ls : List (List α))
    (h : ∀ l ∈ Ls, l.length ≤ V) :
    scatterRows V (Ls.map List.length) Ls.flatten =
      Ls.map (fun l => l ++ List.replicate (V - l.length) 0) := by
  induction Ls with
  | nil => rfl
  | cons l Ls ih =>
    have hl : l.length ≤ V := h l (by simp)
    simp only [List.map_cons, List.flatten_cons, scatterRows, min_eq_left hl,
      List.take_left, List.drop_left]
    rw [ih (fun l' hl' => h l' (by simp [hl']))]

theorem scatterRows_flatten' {α : Type*} [Zero α] (V : ℕ) (sizes : List ℕ) (Ls : List (List α))
    (hs : Ls.map List.length = sizes) (h : ∀ l ∈ Ls, l.length ≤ V) :
    scatterRows V sizes Ls.flatten =
      Ls.map (fun l => l ++ List.replicate (V - l.length) 0) := by
  rw [← hs, scatterRows_flatten V Ls h]

theorem flattenRows_scatter {α : Type*} [Zero α] (V : ℕ) (Ls : List (List α)) :
    flattenRows (Ls.map (fun l => l ++ List.replicate (V - l.length) 0))
      (Ls.map List.length) = Ls.flatten := by
  induction Ls with
  | nil => rfl
  | cons l Ls ih =>
    simp only [flattenRows, List.map_cons, List.zip_cons_cons, List.flatMap_cons,
      List.flatten_cons, List.take_left] at ih ⊢
    rw [ih]

theorem repeatRange_aux (sizes : List ℕ) (k : ℕ) :
    ((sizes.zipIdx k).flatMap (fun p => List.replicate p.1 p.2)).length = sizes.sum := by
  induction sizes generalizing k with
  | nil => rfl
  | cons a l ih => simp [List.zipIdx_cons, ih]

theorem repeatRange_length (sizes : List ℕ) : (repeatRange sizes).length = sizes.sum :=
  repeatRange_aux sizes 0

theorem flattenRows_eq {α : Type*} (blocks : List (List α)) (sizes : List ℕ) :
    flattenRows blocks sizes = (List.zipWith (fun l s => l.take s) blocks sizes).flatten := by
  induction blocks generalizing sizes with
  | nil => simp [flattenRows]
  | cons b blocks ih =>
    cases sizes with
    | nil => simp [flattenRows]
    | cons s sizes =>
      have := ih sizes
      simp only [flattenRows, List.zip_cons_cons, List.flatMap_cons, List.zipWith_cons_cons,
        List.flatten_cons] at this ⊢
      rw [this]

theorem map_length_zipWith_take {α : Type*} (V : ℕ) (blocks : List (List α)) (sizes : List ℕ)
    (hlen : blocks.length = sizes.length) (hV : ∀ b ∈ blocks, b.length = V)
    (hs : ∀ s ∈ sizes, s ≤ V) :
    (List.zipWith (fun l s => l.take s) blocks sizes).map List.length = sizes := by
  induction blocks generalizing sizes with
  | nil => cases sizes <;> simp_all
  | cons b blocks ih =>
    cases sizes with
    | nil => simp at hlen
    | cons s sizes =>
      simp only [List.zipWith_cons_cons, List.map_cons, List.length_take, List.cons.injEq]
      refine ⟨?_, ih sizes (by simpa using hlen) (fun b hb => hV b (by simp [hb]))
        (fun s hs' => hs s (by simp [hs']))⟩
      rw [hV b (by simp)]
      exact min_eq_left (hs s (by simp))

/-! ### the object -/

namespace CloudObj
variable {α : Type*}

theorem getSizes_c (o : CloudObj α) : o.getSizes.2.c = o.c := by
  unfold getSizes; dsimp only; repeat' split
  all_goals rfl

theorem getSizes_batchShape (o : CloudObj α) : o.getSizes.2.batchShape = o.batchShape := by
  unfold getSizes; dsimp only; repeat' split
  all_goals simp_all

theorem getSizes_unflatten (o : CloudObj α) : o.getSizes.2.unflatten = o.unflatten := by
  unfold getSizes; dsimp only; repeat' split
  all_goals rfl

theorem applyUnflatten_c {β : Type*} [Zero β] (o : CloudObj α) (u : Unflat) (d : Fin o.c.n → β) :
    (o.applyUnflatten u d).2.c = o.c := by
  unfold applyUnflatten
  have h := getSizes_c o
  repeat' split
  all_goals simp_all

theorem applyUnflatten_unflatten {β : Type*} [Zero β] (o : CloudObj α) (u : Unflat)
    (d : Fin o.c.n → β) :
    (o.applyUnflatten u d).2.unflatten = o.unflatten := by
  unfold applyUnflatten
  have h := getSizes_unflatten o
  repeat' split
  all_goals simp_all

theorem applyUnflatten_sizes {β : Type*} [Zero β] (o : CloudObj α) (u : Unflat)
    (d : Fin o.c.n → β) :
    (o.applyUnflatten u d).2 = o ∨ (o.applyUnflatten u d).2 = o.getSizes.2 := by
  unfold applyUnflatten
  repeat' split
  all_goals simp_all

theorem getUnflatten_c (o : CloudObj α) (m : Option ℕ) : (o.getUnflatten m).2.c = o.c := by
  unfold getUnflatten; split <;> rfl

theorem getPointsPadded_c [Zero α] (o : CloudObj α) (m : Option ℕ) :
    (o.getPointsPadded m).2.c = o.c := by
  unfold getPointsPadded
  simp only [applyUnflatten_c, getUnflatten_c]

theorem setBatchShape_c (o : CloudObj α) (s : Option (List ℕ)) :
    (o.setBatchShape s).2.c = o.c := by
  unfold setBatchShape; dsimp only; repeat' split
  all_goals rfl

theorem after_c [Zero α] (o : CloudObj α) (k : Call) : (o.after k).c = o.c := by
  cases k <;> simp [after, getSizes_c, getPointsPadded_c, getUnflatten_c, setBatchShape_c]

theorem afterAll_c [Zero α] (o : CloudObj α) (h : List Call) : (o.afterAll h).c = o.c := by
  unfold afterAll
  induction h generalizing o with
  | nil => rfl
  | cons k h ih => rw [List.foldl_cons, ih, after_c]

theorem after_unflatten_some [Zero α] (o : CloudObj α) (k : Call) (u : Unflat)
    (hu : o.unflatten = some u) : (o.after k).unflatten = some u := by
  cases k with
  | getSizes => simp [after, getSizes_unflatten, hu]
  | getPadded m => simp [after, getPointsPadded, applyUnflatten_unflatten, getUnflatten, hu]
  | getId i => exact hu
  | getUnflatten m => simp [after, getUnflatten, hu]
  | setBatchShape s =>
    simp only [after, setBatchShape]
    repeat' split
    all_goals simp_all

theorem afterAll_unflatten_some [Zero α] (o : CloudObj α) (h : List Call) (u : Unflat)
    (hu : o.unflatten = some u) : (o.afterAll h).unflatten = some u := by
  unfold afterAll
  induction h generalizing o with
  | nil => exact hu
  | cons k h ih => rw [List.foldl_cons]; exact ih _ (after_unflatten_some o k u hu)

/-- The memoised sizes, if present, hold the counts of the occurring ids. -/
def SizesOk (o : CloudObj α) : Prop :=
  ∀ s, o.sizes = some s → s.2 = sizesOfIds (List.ofFn o.c.batch) ∧ s.1.prod = s.2.length

theorem getSizes_ok (o : CloudObj α) (h : o.SizesOk) : o.getSizes.2.SizesOk := by
  unfold getSizes; dsimp only
  split
  · exact h
  · split
    · intro s hs; simp at hs; subst hs; simp
    · split
      · intro s hs; simp at hs; subst hs; simp_all
      · intro s hs; simp at hs; subst hs; simp

theorem after_ok [Zero α] (o : CloudObj α) (k : Call) (h : o.SizesOk) : (o.after k).SizesOk := by
  have aux : ∀ m, (o.getUnflatten m).2.SizesOk := by
    intro m; unfold getUnflatten; split
    · exact h
    · exact h
  cases k with
  | getSizes => exact getSizes_ok o h
  | getPadded m =>
    simp only [after, getPointsPadded]
    rcases applyUnflatten_sizes (o.getUnflatten m).2 (o.getUnflatten m).1 (o.getUnflatten m).2.c.pts
      with h1 | h1 <;> rw [h1]
    · exact aux m
    · exact getSizes_ok _ (aux m)
  | getId i => exact h
  | getUnflatten m => exact aux m
  | setBatchShape s =>
    simp only [after, setBatchShape]
    split
    · exact h
    · split
      · split
        · exact h
        · rename_i hs
          split
          · intro s' hs'
            simp at hs'; subst hs'
            have := h _ hs
            simp_all
          · exact h
      · exact h

theorem afterAll_ok [Zero α] (o : CloudObj α) (hist : List Call) (h : o.SizesOk) :
    (o.afterAll hist).SizesOk := by
  unfold afterAll
  induction hist generalizing o with
  | nil => exact h
  | cons k t ih => rw [List.foldl_cons]; exact ih _ (after_ok o k h)

theorem getPointsPadded_padded [Zero α] (o : CloudObj α) (shape sizes : List ℕ) (V : ℕ)
    (h : o.unflatten = some (.padded shape sizes V)) (m : Option ℕ) :
    (o.getPointsPadded m).1 = .ok (shape, scatterRows V sizes (List.ofFn o.c.pts)) := by
  obtain ⟨c, sz, bs, ss, u⟩ := o
  simp only at h
  subst h
  rfl

theorem getSizes_value (o : CloudObj α) (hok : o.SizesOk) {sh sz : List ℕ}
    (h : o.getSizes.1 = .ok (sh, sz)) : sz = sizesOfIds (List.ofFn o.c.batch) := by
  unfold getSizes at h
  dsimp only at h
  split at h
  · rename_i s hs
    simp only [Except.ok.injEq] at h
    have := (hok _ hs).1
    rw [h] at this
    exact this
  · split at h
    · simp only [Except.ok.injEq, Prod.mk.injEq] at h
      exact h.2.symm
    · split at h
      · simp only [Except.ok.injEq, Prod.mk.injEq] at h
        exact h.2.symm
      · simp at h

theorem ofCloud_ok (c : Cloud α) : (ofCloud c).SizesOk := by
  intro s hs; simp [ofCloud] at hs

/-- A set batch shape has the batch size as product. -/
def ShapeOk (o : CloudObj α) : Prop := ∀ sh, o.batchShape = some sh → sh.prod = o.c.B

theorem getSizes_shapeOk (o : CloudObj α) (h : o.ShapeOk) : o.getSizes.2.ShapeOk := by
  intro sh hsh
  rw [getSizes_batchShape] at hsh
  rw [getSizes_c]
  exact h sh hsh

theorem after_shapeOk [Zero α] (o : CloudObj α) (k : Call) (h : o.ShapeOk) :
    (o.after k).ShapeOk := by
  have aux : ∀ m, (o.getUnflatten m).2.ShapeOk := by
    intro m; unfold getUnflatten; split
    · exact h
    · exact h
  cases k with
  | getSizes => exact getSizes_shapeOk o h
  | getPadded m =>
    simp only [after, getPointsPadded]
    rcases applyUnflatten_sizes (o.getUnflatten m).2 (o.getUnflatten m).1 (o.getUnflatten m).2.c.pts
      with h1 | h1 <;> rw [h1]
    · exact aux m
    · exact getSizes_shapeOk _ (aux m)
  | getId i => exact h
  | getUnflatten m => exact aux m
  | setBatchShape s =>
    simp only [after, setBatchShape]
    split
    · intro sh hsh; simp at hsh
    · split
      · rename_i hp
        have aux2 : ∀ (o' : CloudObj α) (ids : List ℕ), ids.prod = o.c.B → o'.c = o.c →
            o'.batchShape = some ids → o'.ShapeOk := by
          intro o' ids hp h1 h2 sh hsh
          rw [h2] at hsh
          simp only [Option.some.injEq] at hsh
          subst hsh
          rw [h1]
          exact hp
        repeat' split
        all_goals exact aux2 _ _ hp rfl rfl
      · exact h

theorem afterAll_shapeOk [Zero α] (o : CloudObj α) (hist : List Call) (h : o.ShapeOk) :
    (o.afterAll hist).ShapeOk := by
  unfold afterAll
  induction hist generalizing o with
  | nil => exact h
  | cons k t ih => rw [List.foldl_cons]; exact ih _ (after_shapeOk o k h)

theorem ofCloud_shapeOk (c : Cloud α) : (ofCloud c).ShapeOk := by
  intro s hs; simp [ofCloud] at hs

/-- Sizes without empty elements. -/
theorem sizesOfIds_noEmpty (c : Cloud α) (hv : c.Valid) (hne : c.NoEmpty) :
    sizesOfIds (List.ofFn c.batch) = (List.range c.B).map (fun b => (c.members b).length) := by
  rw [sizesOfIds_eq _ c.B]
  · have : (List.range c.B).filter (fun b => b ∈ List.ofFn c.batch) = List.range c.B := by
      rw [List.filter_eq_self]
      intro b hb
      simpa [List.mem_ofFn] using hne b (by simpa using hb)
    rw [this]
    apply List.map_congr_left
    intro b _
    rw [count_ofFn_eq]
    rfl
  · intro i hi
    obtain ⟨j, rfl⟩ := List.mem_ofFn.mp hi
    exact hv j

theorem getSizes_success (o : CloudObj α) (hok : o.SizesOk) (hsh : o.ShapeOk)
    (hv : o.c.Valid) (hne : o.c.NoEmpty) :
    ∃ sh, o.getSizes.1 = .ok (sh, (List.range o.c.B).map (fun b => (o.c.members b).length)) ∧
      sh.prod = o.c.B := by
  have hsz := sizesOfIds_noEmpty o.c hv hne
  have hlen : (sizesOfIds (List.ofFn o.c.batch)).length = o.c.B := by rw [hsz]; simp
  unfold getSizes
  dsimp only
  split
  · rename_i s hs
    obtain ⟨h1, h2⟩ := hok s hs
    refine ⟨s.1, ?_, ?_⟩
    · rw [← hsz, ← h1]
    · rw [h2, h1, hlen]
  · split
    · exact ⟨_, by rw [hsz], by simp⟩
    · rename_i sh hsh'
      have := hsh sh hsh'
      rw [if_pos (by rw [this, hlen])]
      exact ⟨sh, by rw [hsz], this⟩

/-- The padded view of per-point data through the sorting closure. -/
theorem applyUnflatten_sorted {β : Type*} [Zero β] (o : CloudObj α) (hok : o.SizesOk)
    (hsh : o.ShapeOk) (hv : o.c.Valid) (hne : o.c.NoEmpty) (mr : Option ℕ) (V : ℕ)
    (hV : V = mr.getD (((List.range o.c.B).map (fun b => (o.c.members b).length)).foldr max 0))
    (hle : ∀ b < o.c.B, (o.c.members b).length ≤ V) (f : Fin o.c.n → β) :
    ∃ sh, (o.applyUnflatten (.sorted mr) f).1 = .ok (sh, (List.range o.c.B).map
        (fun b => (o.c.members b).map f ++ List.replicate (V - (o.c.members b).length) 0)) ∧
      sh.prod = o.c.B := by
  obtain ⟨sh, h1, h2⟩ := getSizes_success o hok hsh hv hne
  refine ⟨sh, ?_, h2⟩
  have hflat : List.ofFn (f ∘ o.c.sortedIndicesBatch) =
      ((List.range o.c.B).map (fun b => (o.c.members b).map f)).flatten := by
    have : List.ofFn (f ∘ o.c.sortedIndicesBatch) =
        (List.ofFn o.c.sortedIndicesBatch).map f := by
      simp [List.ofFn_eq_map, List.map_map]
    rw [this]
    unfold Cloud.sortedIndicesBatch
    rw [argsortAsc_flatMap o.c.batch o.c.B hv, List.map_flatMap, List.flatMap_def]
    rfl
  have hmap : ((List.range o.c.B).map (fun b => (o.c.members b).map f)).map List.length =
      (List.range o.c.B).map (fun b => (o.c.members b).length) := by
    rw [List.map_map]
    apply List.map_congr_left
    intro b _
    simp
  have hsum : (((List.range o.c.B).map (fun b => (o.c.members b).length)).map
      (fun s => min s V)).sum = (List.ofFn (f ∘ o.c.sortedIndicesBatch)).length := by
    rw [hflat, List.length_flatten, hmap, List.map_map]
    congr 1
    apply List.map_congr_left
    intro b hb
    exact min_eq_left (hle b (by simpa using hb))
  unfold applyUnflatten
  dsimp only
  split
  · rename_i e o' heq
    rw [heq] at h1; simp at h1
  · rename_i sh' sz' o' heq
    rw [heq] at h1
    simp only [Except.ok.injEq, Prod.mk.injEq] at h1
    obtain ⟨rfl, rfl⟩ := h1
    unfold unflatten2d
    dsimp only
    rw [← hV, if_pos hsum]
    simp only
    congr 2
    rw [hflat, scatterRows_flatten' V _ _ hmap]
    · rw [List.map_map]
      apply List.map_congr_left
      intro b _
      simp
    · intro l hl
      simp only [List.mem_map, List.mem_range] at hl
      obtain ⟨b, hb, rfl⟩ := hl
      simpa using hle b hb

/-- The limit that a padded request will effectively use. -/
def effLimit (o : CloudObj α) (m : Option ℕ) : Option (Option ℕ) :=
  match o.unflatten with
  | none => some m
  | some (.sorted mr) => some mr
  | some (.padded ..) => none

theorem getPointsPadded_sorted [Zero α] (o : CloudObj α) (hok : o.SizesOk)
    (hsh : o.ShapeOk) (hv : o.c.Valid) (hne : o.c.NoEmpty) (m mr : Option ℕ)
    (he : o.effLimit m = some mr) (V : ℕ)
    (hV : V = mr.getD (((List.range o.c.B).map (fun b => (o.c.members b).length)).foldr max 0))
    (hle : ∀ b < o.c.B, (o.c.members b).length ≤ V) :
    ∃ sh, (o.getPointsPadded m).1 = .ok (sh, (List.range o.c.B).map
        (fun b => (o.c.members b).map o.c.pts ++
          List.replicate (V - (o.c.members b).length) 0)) ∧ sh.prod = o.c.B := by
  obtain ⟨c, sz, bs, ss, u⟩ := o
  unfold effLimit at he
  cases u with
  | none =>
    simp only [Option.some.injEq] at he
    subst he
    exact applyUnflatten_sorted ⟨c, sz, bs, ss, some (.sorted m)⟩ hok hsh hv hne m V hV hle c.pts
  | some u =>
    cases u with
    | padded => simp at he
    | sorted mr' =>
      simp only [Option.some.injEq] at he
      subst he
      exact applyUnflatten_sorted ⟨c, sz, bs, ss, some (.sorted mr')⟩ hok hsh hv hne mr' V hV hle c.pts

theorem foldr_max_ge (l : List ℕ) : ∀ x ∈ l, x ≤ l.foldr max 0 := by
  induction l with
  | nil => simp
  | cons a l ih =>
    intro x hx
    rcases List.mem_cons.mp hx with rfl | hx
    · simp
    · exact le_trans (ih x hx) (by simp)

/-- The limit captured by a call, if any. -/
def Call.limit : Call → Option ℕ
  | .getPadded m => m
  | .getUnflatten m => m
  | _ => none

theorem after_unflatten [Zero α] (o : CloudObj α) (k : Call)
    (h : o.unflatten = none ∨ o.unflatten = some (.sorted none)) (hk : k.limit = none) :
    (o.after k).unflatten = none ∨ (o.after k).unflatten = some (.sorted none) := by
  rcases h with h | h
  · cases k with
    | getSizes => left; simp [after, getSizes_unflatten, h]
    | getPadded m =>
      right
      simp only [Call.limit] at hk
      simp [after, getPointsPadded, applyUnflatten_unflatten, getUnflatten, h, hk]
    | getId i => left; exact h
    | getUnflatten m =>
      right
      simp only [Call.limit] at hk
      simp [after, getUnflatten, h, hk]
    | setBatchShape s =>
      left
      simp only [after, setBatchShape]
      repeat' split
      all_goals simp_all
  · right; exact after_unflatten_some o k _ h

theorem afterAll_unflatten [Zero α] (o : CloudObj α) (hist : List Call)
    (h : o.unflatten = none ∨ o.unflatten = some (.sorted none))
    (hk : ∀ k ∈ hist, k.limit = none) :
    (o.afterAll hist).unflatten = none ∨ (o.afterAll hist).unflatten = some (.sorted none) := by
  unfold afterAll
  induction hist generalizing o with
  | nil => exact h
  | cons k t ih =>
    rw [List.foldl_cons]
    exact ih _ (after_unflatten o k h (hk k (by simp))) (fun k' hk' => hk k' (by simp [hk']))

end CloudObj

end PC
