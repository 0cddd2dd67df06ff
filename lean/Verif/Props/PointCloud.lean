import Verif.PointCloudLemmas
import Verif.Features
import Mathlib.Data.Rat.Defs
import Mathlib.Data.Fintype.BigOperators

/-!
# Properties C01–C10: point clouds and their padded / segmented views

The statements only use the observable results of the API calls and counting
functions on the inputs (`List.count`, `List.filter`, `Finset.card`).
-/

set_option linter.unusedVariables false

namespace PC
open CloudObj

/-! ## C01 -/

/-- **C01.** Construct from padded input with `sizes`; after any history of
method calls `get_points()` (with any `max_num_points`) returns the original
shape, each block starting with its first `sizes[b]` input rows followed by
zeros. -/
theorem C01_padded_roundtrip {α : Type*} [Zero α] (shape : List ℕ) (V : ℕ)
    (blocks : List (List α)) (sizes : List ℕ)
    (hb : blocks.length = shape.prod) (hs : sizes.length = shape.prod)
    (hV : ∀ b ∈ blocks, b.length = V) (hle : ∀ s ∈ sizes, s ≤ V) :
    ∃ o, newPadded shape V blocks (some sizes) none = .ok o ∧
      ∀ (hist : List Call) (m : Option ℕ),
        ((o.afterAll hist).getPointsPadded m).1 =
          .ok (shape, List.zipWith (fun b s => b.take s ++ List.replicate (V - s) 0) blocks sizes) := by
  have hlen : blocks.length = sizes.length := by rw [hb, hs]
  have hmap := map_length_zipWith_take V blocks sizes hlen hV hle
  have hl : (repeatRange sizes).length = (flattenRows blocks sizes).length := by
    rw [repeatRange_length, flattenRows_eq, List.length_flatten, hmap]
  refine ⟨⟨(⟨flattenRows blocks sizes, repeatRange sizes, shape.prod⟩ : RawCloud α).toCloud hl,
      some (shape, sizes), some shape, some shape, some (.padded shape sizes V)⟩, ?_, ?_⟩
  · simp [newPadded, hl]
  · intro hist m
    set o : CloudObj α := ⟨(⟨flattenRows blocks sizes, repeatRange sizes, shape.prod⟩ :
      RawCloud α).toCloud hl, some (shape, sizes), some shape, some shape,
      some (.padded shape sizes V)⟩ with ho
    have h1 : (o.afterAll hist).unflatten = some (.padded shape sizes V) :=
      afterAll_unflatten_some o hist _ rfl
    have h2 : List.ofFn (o.afterAll hist).c.pts = flattenRows blocks sizes := by
      rw [afterAll_c]
      exact List.ofFn_getElem
    rw [getPointsPadded_padded _ _ _ _ h1, h2]
    congr 2
    rw [flattenRows_eq]
    rw [scatterRows_flatten' _ _ _ hmap]
    · apply List.ext_getElem
      · simp
      · intro i h1 h2
        simp only [List.getElem_map, List.getElem_zipWith, List.length_take]
        have hi : i < blocks.length := by simp at h2; omega
        have hi' : i < sizes.length := by simp at h2; omega
        rw [hV _ (List.getElem_mem hi), min_eq_left (hle _ (List.getElem_mem hi'))]
    · intro l hl
      have : l.length ∈ (List.zipWith (fun l s => l.take s) blocks sizes).map List.length :=
        List.mem_map_of_mem hl
      rw [hmap] at this
      exact hle _ this

/-- The no-padding case: without `sizes` the tensor comes back unchanged. -/
theorem C01_unpadded_roundtrip {α : Type*} [Zero α] (shape : List ℕ) (V : ℕ)
    (blocks : List (List α)) (hb : blocks.length = shape.prod)
    (hV : ∀ b ∈ blocks, b.length = V) :
    ∃ o, newPadded shape V blocks none none = .ok o ∧
      ∀ (hist : List Call) (m : Option ℕ),
        ((o.afterAll hist).getPointsPadded m).1 = .ok (shape, blocks) := by
  obtain ⟨o, h1, h2⟩ := C01_padded_roundtrip shape V blocks (List.replicate shape.prod V) hb
    (by simp) hV (by intro s hs; rw [List.eq_of_mem_replicate hs])
  refine ⟨o, ?_, ?_⟩
  · rw [← h1]; simp [newPadded]
  · intro hist m
    rw [h2 hist m]
    congr 2
    apply List.ext_getElem
    · simp [hb]
    · intro i hi1 hi2
      have := hV _ (List.getElem_mem hi2)
      simp [this]

/-- C01 is not vacuous: a 2×2 batch with one empty element and garbage padding. -/
example : (newPadded [2, 2] 2 [[(1 : ℤ), 99], [2, 3], [98, 97], [4, 5]] (some [1, 2, 0, 1]) none).map
    (fun o => (o.getPointsPadded none).1.toOption) =
      .ok (some ([2, 2], [[1, 0], [2, 3], [0, 0], [4, 0]])) := by decide

/-! ## C02 -/

/-- **C02.** For a valid id, `get_points(id)` returns the points at the
increasing list of exactly those positions whose batch id is `id`. -/
theorem C02_get_points_id {α : Type*} (o : CloudObj α) (id : ℕ) (h : id < o.c.B) :
    ∃ idx : List (Fin o.c.n), o.getPointsId id = .ok (idx.map o.c.pts) ∧
      idx.Pairwise (· < ·) ∧ ∀ i, i ∈ idx ↔ o.c.batch i = id := by
  refine ⟨(List.finRange o.c.n).filter (fun i => (o.c.batch i : ℤ) = id), ?_, ?_, ?_⟩
  · unfold getPointsId
    rw [if_neg (by omega)]
  · exact (List.pairwise_lt_finRange _).filter _
  · intro i; simp

/-- **C02 (partition).** The results over all ids together are a permutation
of the input points: no point is lost, duplicated or attributed twice. -/
theorem C02_partition {α : Type*} (o : CloudObj α) (hv : o.c.Valid) :
    ∃ parts : List (List α), parts.length = o.c.B ∧
      (∀ b (h : b < o.c.B), ∀ hb : b < parts.length, o.getPointsId b = .ok parts[b]) ∧
      parts.flatten.Perm (List.ofFn o.c.pts) := by
  refine ⟨(List.range o.c.B).map (fun b =>
    ((List.finRange o.c.n).filter (fun i => o.c.batch i = b)).map o.c.pts), by simp, ?_, ?_⟩
  · intro b h hb
    unfold getPointsId
    rw [if_neg (by omega)]
    simp
  · have h1 : ((List.range o.c.B).map (fun b =>
        ((List.finRange o.c.n).filter (fun i => o.c.batch i = b)).map o.c.pts)).flatten =
        ((List.range o.c.B).flatMap (fun b =>
        ((List.finRange o.c.n).filter (fun i => o.c.batch i = b)))).map o.c.pts := by
      rw [← List.flatMap_def, List.map_flatMap]
    rw [h1, ← argsortAsc_flatMap o.c.batch o.c.B hv, List.ofFn_eq_map, List.ofFn_eq_map]
    apply List.Perm.map
    rw [← List.ofFn_eq_map]
    unfold argsortAsc
    rw [ofFn_argsort]
    exact argsortList_perm _

/-- A cloud with interleaved ids meeting the hypotheses. -/
example : ((ofCloud ⟨4, ![(10 : ℤ), 11, 12, 13], ![1, 0, 1, 0], 2⟩).getPointsId 1).toOption
    = some [10, 12] := by decide

/-! ## C03 -/

/-- The two-point cloud used as witness below. -/
def twoPoints : CloudObj ℤ := ofCloud ⟨2, ![5, 6], ![0, 0], 1⟩

/-- **C03, negation.** "IndexError exactly for ids outside `[0, batch_size)`"
is false: `id = batch_size` is accepted (the code compares with `>`), and so
are negative ids. -/
theorem C03_index_error_false :
    ¬ (∀ (o : CloudObj ℤ), o.c.Valid → ∀ id : ℤ,
        (o.getPointsId id = .error .indexError ↔ ¬ (0 ≤ id ∧ id < o.c.B))) ∧
    twoPoints.getPointsId 1 = .ok [] ∧ twoPoints.getPointsId (-1) = .ok [] := by
  refine ⟨?_, rfl, rfl⟩
  intro h
  have := (h twoPoints (by decide) 1).mpr (by decide)
  exact absurd this (by decide)

/-- **C03, what holds.** IndexError is raised exactly for `id > batch_size`;
ids outside `[0, batch_size)` that are not rejected yield no points at all. -/
theorem C03_index_error_partial {α : Type*} (o : CloudObj α) (hv : o.c.Valid) (id : ℤ) :
    (o.getPointsId id = .error .indexError ↔ (o.c.B : ℤ) < id) ∧
    (¬ (0 ≤ id ∧ id < o.c.B) → ∀ l, o.getPointsId id = .ok l → l = []) := by
  unfold getPointsId
  constructor
  · split <;> simp_all
  · intro hid l hl
    split at hl
    · simp at hl
    · simp only [Except.ok.injEq] at hl
      rw [← hl]
      simp only [List.map_eq_nil_iff, List.filter_eq_nil_iff, List.mem_finRange, decide_eq_true_eq,
        true_implies]
      intro i hi
      have := hv i
      apply hid
      omega

/-! ## C04, C05 -/

/-- **C04, negation.** A batch element without points is missing from
`get_sizes()`, so the result has fewer entries than the batch. -/
theorem C04_sizes_false :
    ¬ (∀ (c : Cloud ℤ), c.Valid → ∃ sh, (ofCloud c).getSizes.1 =
        .ok (sh, (List.range c.B).map (fun b => (List.ofFn c.batch).count b))) := by
  intro h
  obtain ⟨sh, hsh⟩ := h ⟨2, ![5, 6], ![0, 2], 3⟩ (by decide)
  have : (ofCloud (⟨2, ![5, 6], ![0, 2], 3⟩ : Cloud ℤ)).getSizes.1 = .ok ([2], [1, 1]) := by decide
  rw [this] at hsh
  simp only [Except.ok.injEq, Prod.mk.injEq] at hsh
  exact absurd hsh.2 (by decide)

/-- **C04, what holds.** After any history of calls on a cloud given by batch
ids, whenever `get_sizes()` succeeds its entries are the numbers of points of
the batch elements *that have points*, in increasing order of batch id. -/
theorem C04_sizes_partial {α : Type*} [Zero α] (c : Cloud α) (hv : c.Valid) (hist : List Call)
    (sh sz : List ℕ) (h : ((ofCloud c).afterAll hist).getSizes.1 = .ok (sh, sz)) :
    sz = ((List.range c.B).filter (fun b => ∃ i, c.batch i = b)).map
        (fun b => ((Finset.univ.filter (fun i => c.batch i = b)).card)) := by
  set o := (ofCloud c).afterAll hist with ho
  have hok : o.SizesOk := afterAll_ok _ _ (ofCloud_ok c)
  have hc : o.c = c := afterAll_c _ _
  have hsz : sz = sizesOfIds (List.ofFn o.c.batch) := getSizes_value o hok h
  rw [hsz, hc, sizesOfIds_eq _ c.B]
  · have e1 : (fun b => decide (b ∈ List.ofFn c.batch)) =
        (fun b => decide (∃ i, c.batch i = b)) := by
      funext b
      simp [List.mem_ofFn]
    rw [e1]
    apply List.map_congr_left
    intro b _
    rw [count_ofFn_eq]
    rw [card_filter_eq]
  · intro i hi
    rw [List.mem_ofFn] at hi
    obtain ⟨j, rfl⟩ := hi
    exact hv j

/-- **C04 without empty batch elements** (the intended use): after every
history of calls `get_sizes()` succeeds with one entry per batch element, in a
shape with the right number of entries; entry `b` is the number of points of
element `b`. -/
theorem C04_sizes_noEmpty {α : Type*} [Zero α] (c : Cloud α) (hv : c.Valid) (hne : c.NoEmpty)
    (hist : List Call) :
    ∃ sh, ((ofCloud c).afterAll hist).getSizes.1 = .ok (sh, (List.range c.B).map
        (fun b => ((Finset.univ.filter (fun i => c.batch i = b)).card))) ∧ sh.prod = c.B := by
  have hc : ((ofCloud c).afterAll hist).c = c := afterAll_c _ _
  obtain ⟨sh, h1, h2⟩ := getSizes_success ((ofCloud c).afterAll hist)
    (afterAll_ok _ _ (ofCloud_ok c)) (afterAll_shapeOk _ _ (ofCloud_shapeOk c))
    (by rw [hc]; exact hv) (by rw [hc]; exact hne)
  rw [hc] at h1 h2
  refine ⟨sh, ?_, h2⟩
  rw [h1]
  congr 3

/-- Non-vacuity for C04: three interleaved elements, sizes asked twice around a reshape. -/
example : (((ofCloud ⟨5, ![(1 : ℤ), 2, 3, 4, 5], ![2, 0, 1, 0, 3], 4⟩).afterAll
    [.getSizes, .setBatchShape (some [2, 2])]).getSizes.1.toOption) = some ([2, 2], [2, 1, 1, 1]) := by
  decide

/-- **C05.** The sizes of a cloud given by batch ids are positive and add up to
the number of points. -/
theorem C05_sizes_sum {α : Type*} [Zero α] (c : Cloud α) (hist : List Call) (sh sz : List ℕ)
    (h : ((ofCloud c).afterAll hist).getSizes.1 = .ok (sh, sz)) :
    sz.sum = c.n ∧ ∀ s ∈ sz, 0 < s := by
  -- enlarge the batch size so that every id is valid
  obtain ⟨B, hB⟩ : ∃ B, ∀ i, c.batch i < B :=
    ⟨Finset.univ.sup c.batch + 1, fun i => Nat.lt_succ_of_le (Finset.le_sup (Finset.mem_univ i))⟩
  have hsz : sz = sizesOfIds (List.ofFn c.batch) := by
    have := getSizes_value _ (afterAll_ok _ hist (ofCloud_ok c)) h
    rwa [afterAll_c] at this
  have hlt : ∀ i ∈ List.ofFn c.batch, i < B := by
    intro i hi
    obtain ⟨j, rfl⟩ := List.mem_ofFn.mp hi
    exact hB j
  rw [hsz, sizesOfIds_eq _ B hlt]
  constructor
  · have e : ((List.range B).map (fun b => (List.ofFn c.batch).count b)).sum = c.n := by
      have hlen := congrArg List.length (argsortAsc_flatMap c.batch B hB)
      rw [List.length_ofFn, List.length_flatMap] at hlen
      conv_rhs => rw [hlen]
      congr 1
      apply List.map_congr_left
      intro b _
      rw [count_ofFn_eq]
    rw [← sum_map_filter_mem]
    exact e
  · intro s hs
    simp only [List.mem_map, List.mem_filter, List.mem_range, decide_eq_true_eq] at hs
    obtain ⟨b, ⟨_, hb⟩, rfl⟩ := hs
    exact List.count_pos_iff.mpr hb

/-! ## C06 -/

/-- The number of points of element `b`. -/
def sizeOf {α : Type*} (c : Cloud α) (b : ℕ) : ℕ := (Finset.univ.filter (fun i => c.batch i = b)).card

/-- **C06 (no empty elements).** After any history of calls that did not fix a
`max_num_points`, `get_points()` returns for each batch element `b` exactly
the list `get_points(b)` followed by zero rows, all blocks having
`max(sizes)` rows. -/
theorem C06_padded_view_partial {α : Type*} [Zero α] (c : Cloud α) (hv : c.Valid) (hne : c.NoEmpty)
    (hist : List Call) (hk : ∀ k ∈ hist, k.limit = none) :
    ∃ sh blocks, (((ofCloud c).afterAll hist).getPointsPadded none).1 = .ok (sh, blocks) ∧
      sh.prod = c.B ∧ blocks.length = c.B ∧
      ∀ b (hb : b < blocks.length), ∃ l, ((ofCloud c).afterAll hist).getPointsId b = .ok l ∧
        blocks[b] = l ++ List.replicate ((Finset.range c.B).sup (sizeOf c) - l.length) 0 := by
  set o := (ofCloud c).afterAll hist with ho
  have hc : o.c = c := afterAll_c _ _
  have hun := afterAll_unflatten (ofCloud c) hist (Or.inl rfl) hk
  have heff : o.effLimit none = some none := by
    unfold effLimit
    rcases hun with h | h <;> rw [h]
  obtain ⟨sh, h1, h2⟩ := getPointsPadded_sorted o (afterAll_ok _ _ (ofCloud_ok c))
    (afterAll_shapeOk _ _ (ofCloud_shapeOk c)) (by rw [hc]; exact hv) (by rw [hc]; exact hne)
    none none heff _ rfl (by
      intro b hb
      apply foldr_max_ge
      simp only [List.mem_map, List.mem_range]
      exact ⟨b, hb, rfl⟩)
  refine ⟨sh, _, h1, by rw [h2, hc], by simp [hc], ?_⟩
  intro b hb
  simp only [List.length_map, List.length_range] at hb
  refine ⟨(o.c.members b).map o.c.pts, ?_, ?_⟩
  · unfold getPointsId
    rw [if_neg (by omega)]
    simp [Cloud.members]
  · simp only [List.getElem_map, List.getElem_range, Option.getD_none, List.length_map]
    congr 3
    have : ∀ m : ℕ, ((List.range m).map (fun b => (o.c.members b).length)).foldr max 0 =
        (Finset.range m).sup (sizeOf o.c) := by
      intro m
      apply le_antisymm
      · have gen : ∀ (l : List ℕ) (B : ℕ), (∀ x ∈ l, x ≤ B) → l.foldr max 0 ≤ B := by
          intro l B
          induction l with
          | nil => simp
          | cons a l ih =>
            intro hl
            simp only [List.foldr_cons]
            exact max_le (hl a (by simp)) (ih (fun x hx => hl x (by simp [hx])))
        apply gen
        intro x hx
        simp only [List.mem_map, List.mem_range] at hx
        obtain ⟨b, hb, rfl⟩ := hx
        have : (o.c.members b).length = sizeOf o.c b := by
          unfold sizeOf; rw [card_filter_eq]; rfl
        rw [this]
        exact Finset.le_sup (by simpa using hb)
      · apply Finset.sup_le
        intro b hb
        apply foldr_max_ge
        simp only [List.mem_map, List.mem_range]
        refine ⟨b, by simpa using hb, ?_⟩
        unfold sizeOf; rw [card_filter_eq]; rfl
    rw [this, hc]

/-- **C06, negation with an empty element.** With ids `[0, 2]` and batch size 3
the padded view has only two blocks, and the points of element 2 appear in
block 1. -/
theorem C06_padded_view_false :
    ¬ (∀ (c : Cloud ℤ), c.Valid → ∃ sh blocks, ((ofCloud c).getPointsPadded none).1 = .ok (sh, blocks) ∧
        blocks.length = c.B) ∧
    ((ofCloud (⟨2, ![5, 6], ![0, 2], 3⟩ : Cloud ℤ)).getPointsPadded none).1 =
      .ok ([2], [[5], [6]]) := by
  have key : ((ofCloud (⟨2, ![5, 6], ![0, 2], 3⟩ : Cloud ℤ)).getPointsPadded none).1 =
      .ok ([2], [[5], [6]]) := by decide
  refine ⟨?_, key⟩
  intro h
  obtain ⟨sh, bl, h1, h2⟩ := h ⟨2, ![5, 6], ![0, 2], 3⟩ (by decide)
  rw [key] at h1
  simp only [Except.ok.injEq, Prod.mk.injEq] at h1
  rw [← h1.2] at h2
  simp at h2

/-- C06 on an interleaved cloud. -/
example : ((ofCloud ⟨4, ![(10 : ℤ), 11, 12, 13], ![1, 0, 1, 1], 2⟩).getPointsPadded none).1 =
    .ok ([2], [[11, 0, 0], [10, 12, 13]]) := by decide

/-! ## C07 -/

/-- **C07, negation.** The first call decides: after `get_points()` a later
`get_points(max_num_points=5)` still returns 2 rows per element, and after a
call with too small a limit even `get_points()` fails. -/
theorem C07_max_num_points_false :
    let c : Cloud ℤ := ⟨3, ![1, 2, 3], ![0, 1, 0], 2⟩
    (((ofCloud c).afterAll [.getPadded none]).getPointsPadded (some 5)).1 =
        .ok ([2], [[1, 3], [2, 0]]) ∧
    (((ofCloud c).afterAll [.getPadded (some 1)]).getPointsPadded none).1 =
        .error .invalidArgument ∧
    ¬ (∀ (c : Cloud ℤ), c.Valid → c.NoEmpty → ∀ (hist : List Call) (m : ℕ),
        (∀ b < c.B, sizeOf c b ≤ m) → ∃ sh blocks,
          (((ofCloud c).afterAll hist).getPointsPadded (some m)).1 = .ok (sh, blocks) ∧
          ∀ l ∈ blocks, l.length = m) := by
  have k1 : (((ofCloud (⟨3, ![1, 2, 3], ![0, 1, 0], 2⟩ : Cloud ℤ)).afterAll
      [.getPadded none]).getPointsPadded (some 5)).1 = .ok ([2], [[1, 3], [2, 0]]) := by decide
  refine ⟨k1, by decide, ?_⟩
  intro h
  obtain ⟨sh, bl, h1, h2⟩ := h ⟨3, ![1, 2, 3], ![0, 1, 0], 2⟩ (by decide) (by decide)
    [.getPadded none] 5 (by decide)
  rw [k1] at h1
  simp only [Except.ok.injEq, Prod.mk.injEq] at h1
  have := h2 [1, 3] (by rw [← h1.2]; simp)
  simp at this

/-- **C07, what holds.** If no earlier call asked for a padded view
(`get_points()`/`get_unflatten()`), a request with a sufficient
`max_num_points = m` returns blocks of exactly `m` rows: the element's points
followed by zeros. -/
theorem C07_max_num_points_partial {α : Type*} [Zero α] (c : Cloud α) (hv : c.Valid)
    (hne : c.NoEmpty) (hist : List Call)
    (hfirst : ∀ k ∈ hist, (∃ id, k = .getId id) ∨ k = .getSizes ∨ ∃ s, k = .setBatchShape s)
    (m : ℕ) (hm : ∀ b < c.B, sizeOf c b ≤ m) :
    ∃ sh blocks, (((ofCloud c).afterAll hist).getPointsPadded (some m)).1 = .ok (sh, blocks) ∧
      sh.prod = c.B ∧ blocks.length = c.B ∧ (∀ l ∈ blocks, l.length = m) ∧
      ∀ b (hb : b < blocks.length), ∃ l, ((ofCloud c).afterAll hist).getPointsId b = .ok l ∧
        blocks[b] = l ++ List.replicate (m - l.length) 0 := by
  set o := (ofCloud c).afterAll hist with ho
  have hc : o.c = c := afterAll_c _ _
  have hun : o.unflatten = none := by
    rw [ho]
    have : ∀ (l : List Call) (o : CloudObj α), o.unflatten = none →
        (∀ k ∈ l, (∃ id, k = .getId id) ∨ k = .getSizes ∨ ∃ s, k = .setBatchShape s) →
        (o.afterAll l).unflatten = none := by
      intro l
      induction l with
      | nil => intro o h _; exact h
      | cons k t ih =>
        intro o h hk
        have e : o.afterAll (k :: t) = (o.after k).afterAll t := rfl
        rw [e]
        apply ih
        · rcases hk k (by simp) with ⟨id, rfl⟩ | rfl | ⟨s, rfl⟩
          · exact h
          · simp [after, getSizes_unflatten, h]
          · simp only [after, setBatchShape]
            repeat' split
            all_goals simp_all
        · intro k' hk'; exact hk k' (by simp [hk'])
    exact this hist _ rfl hfirst
  have heff : o.effLimit (some m) = some (some m) := by
    unfold effLimit; rw [hun]
  have hsz : ∀ b, (c.members b).length = sizeOf c b := by
    intro b; unfold sizeOf; rw [card_filter_eq]; rfl
  obtain ⟨sh, h1, h2⟩ := getPointsPadded_sorted o (afterAll_ok _ _ (ofCloud_ok c))
    (afterAll_shapeOk _ _ (ofCloud_shapeOk c)) (by rw [hc]; exact hv) (by rw [hc]; exact hne)
    (some m) (some m) heff m rfl (by
      rw [hc]; intro b hb; rw [hsz]; exact hm b hb)
  refine ⟨sh, _, h1, by rw [h2, hc], by simp [hc], ?_, ?_⟩
  · intro l hl
    simp only [List.mem_map, List.mem_range] at hl
    obtain ⟨b, hb, rfl⟩ := hl
    simp only [List.length_append, List.length_map, List.length_replicate]
    have : (o.c.members b).length ≤ m := by
      rw [hc] at hb ⊢; rw [hsz]; exact hm b hb
    omega
  · intro b hb
    simp only [List.length_map, List.length_range] at hb
    refine ⟨(o.c.members b).map o.c.pts, ?_, ?_⟩
    · unfold getPointsId
      rw [if_neg (by omega)]
      simp [Cloud.members]
    · simp

end PC
