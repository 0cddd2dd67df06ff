import Verif.Props.PointCloud

/-!
# Properties C08–C10, C66, C67: batch shapes, validation, feature layout
-/

set_option linter.unusedVariables false

namespace PC
open CloudObj

/-! ## C08 -/

/-- All multi indices of a shape in row-major (lexicographic) order. -/
def multiIndices : List ℕ → List (List ℕ)
  | [] => [[]]
  | s :: ss => (List.range s).flatMap (fun i => (multiIndices ss).map (i :: ·))

theorem multiIndices_length (sh : List ℕ) : (multiIndices sh).length = sh.prod := by
  induction sh with
  | nil => rfl
  | cons s ss ih => simp [multiIndices, List.length_flatMap, ih]

theorem getElem_flatMap_const {γ δ : Type*} (m : ℕ) (f : γ → List δ) (l : List γ)
    (hf : ∀ x ∈ l, (f x).length = m) (a r : ℕ) (ha : a < l.length) (hr : r < m)
    (h : a * m + r < (l.flatMap f).length) :
    (l.flatMap f)[a * m + r] = (f l[a])[r]'(by rw [hf _ (List.getElem_mem ha)]; exact hr) := by
  induction l generalizing a with
  | nil => simp at ha
  | cons x l ih =>
    have hx : (f x).length = m := hf x (by simp)
    simp only [List.flatMap_cons]
    cases a with
    | zero =>
      simp only [Nat.zero_mul, Nat.zero_add, List.getElem_cons_zero]
      rw [List.getElem_append_left (by omega)]
    | succ a =>
      simp only [List.getElem_cons_succ]
      have e : (a + 1) * m + r = m + (a * m + r) := by ring
      rw [List.getElem_append_right (by rw [hx]; omega)]
      have := ih (fun y hy => hf y (by simp [hy])) a (by simpa using ha)
        (by rw [List.flatMap_cons, List.length_append] at h; omega)
      rw [← this]
      congr 1
      rw [hx]; omega

theorem rowMajor_multiIndices (sh : List ℕ) (k : ℕ) (h : k < (multiIndices sh).length) :
    rowMajor sh ((multiIndices sh)[k]) = some k := by
  induction sh generalizing k with
  | nil =>
    simp only [multiIndices, List.length_singleton] at h
    have : k = 0 := by omega
    subst this
    rfl
  | cons s ss ih =>
    have hl := multiIndices_length ss
    have hk : k < s * ss.prod := by
      rw [multiIndices_length] at h; simpa using h
    have hpos : 0 < ss.prod := by
      rcases Nat.eq_zero_or_pos ss.prod with h0 | h0
      · rw [h0] at hk; simp at hk
      · exact h0
    have hdiv : k / ss.prod < s := by
      rw [Nat.div_lt_iff_lt_mul hpos]; exact hk
    have hmod : k % ss.prod < ss.prod := Nat.mod_lt _ hpos
    have hdecomp : k / ss.prod * ss.prod + k % ss.prod = k := by
      rw [Nat.mul_comm]; exact Nat.div_add_mod _ _
    have key : (multiIndices (s :: ss))[k] =
        (k / ss.prod) :: (multiIndices ss)[k % ss.prod]'(by rw [hl]; exact hmod) := by
      have := getElem_flatMap_const ss.prod (fun i => (multiIndices ss).map (i :: ·)) (List.range s)
        (by intro x _; simp [hl]) (k / ss.prod) (k % ss.prod) (by simpa using hdiv) hmod
        (by rw [hdecomp]; exact h)
      simp only [hdecomp, List.getElem_range, List.getElem_map] at this
      exact this
    rw [key]
    simp only [rowMajor, if_pos hdiv]
    rw [ih (k % ss.prod) (by rw [hl]; exact hmod)]
    simp [hdecomp]

/-- **C08, acceptance.** After every history of calls on a cloud without empty
elements, `set_batch_shape(sh)` succeeds exactly when the entries of `sh`
multiply to the batch size. -/
theorem C08_accepts_iff_partial {α : Type*} [Zero α] (c : Cloud α) (hv : c.Valid) (hne : c.NoEmpty)
    (hist : List Call) (sh : List ℕ) :
    (((ofCloud c).afterAll hist).setBatchShape (some sh)).1 = .ok () ↔ sh.prod = c.B := by
  have hc : ((ofCloud c).afterAll hist).c = c := afterAll_c _ _
  have hok := afterAll_ok _ hist (ofCloud_ok c)
  generalize (ofCloud c).afterAll hist = o at hc hok
  subst hc
  have hlen : (sizesOfIds (List.ofFn o.c.batch)).length = o.c.B := by
    rw [sizesOfIds_noEmpty o.c hv hne]; simp
  unfold setBatchShape
  dsimp only
  constructor
  · intro h
    by_contra hp
    rw [if_neg hp] at h
    simp at h
  · intro hp
    rw [if_pos hp]
    split
    · rfl
    · rename_i s sz hs
      have := (hok _ hs).1
      simp only at this
      rw [if_pos (by rw [hp, this, hlen])]

/-- **C08, rejection is clean.** A shape with a wrong product is rejected and
the object is unchanged (any object). -/
theorem C08_rejected_unchanged {α : Type*} (o : CloudObj α) (sh : List ℕ) (h : sh.prod ≠ o.c.B) :
    o.setBatchShape (some sh) = (.error .invalidArgument, o) := by
  unfold setBatchShape
  simp only [if_neg h]

/-- **C08, content.** No sequence of calls (in particular of `set_batch_shape`)
changes points, batch ids or batch size, hence no per-element result. -/
theorem C08_content_unchanged {α : Type*} [Zero α] (o : CloudObj α) (hist : List Call) :
    (o.afterAll hist).c = o.c ∧ ∀ id, (o.afterAll hist).getPointsId id = o.getPointsId id := by
  refine ⟨afterAll_c o hist, fun id => ?_⟩
  have h := afterAll_c o hist
  generalize o.afterAll hist = o' at h
  cases o; cases o'
  simp only at h
  subst h
  rfl

/-- **C08, arrangement.** After an accepted `set_batch_shape(sh)` the tuple
that is number `k` in row-major order selects batch element `k`. -/
theorem C08_tuple_row_major {α : Type*} (o : CloudObj α) (sh : List ℕ)
    (h : (o.setBatchShape (some sh)).1 = .ok ()) :
    (multiIndices sh).length = o.c.B ∧
    ∀ k (hk : k < (multiIndices sh).length),
      (o.setBatchShape (some sh)).2.getPointsTuple (multiIndices sh)[k] = o.getPointsId k := by
  have hp : sh.prod = o.c.B := by
    by_contra hp
    rw [C08_rejected_unchanged o sh hp] at h
    simp at h
  refine ⟨by rw [multiIndices_length, hp], ?_⟩
  intro k hk
  have hseg : (o.setBatchShape (some sh)).2.segShape = some sh := by
    unfold setBatchShape
    simp only [if_pos hp]
    repeat' split
    all_goals rfl
  have hc := setBatchShape_c o (some sh)
  generalize (o.setBatchShape (some sh)).2 = o' at hseg hc
  unfold getPointsTuple
  rw [hseg]
  simp only [rowMajor_multiIndices sh k hk]
  cases o; cases o'
  simp only at hc
  subst hc
  rfl

theorem rowMajor_none (sh ix : List ℕ) (h : ¬ List.Forall₂ (fun i s => i < s) ix sh) : rowMajor sh ix = none := by
  induction sh generalizing ix with
  | nil =>
    cases ix with
    | nil => exact absurd .nil h
    | cons i is => rfl
  | cons s ss ih =>
    cases ix with
    | nil => rfl
    | cons i is =>
      unfold rowMajor
      split
      · rw [ih is (fun h' => h (.cons ‹_› h'))]
        rfl
      · rfl

/-- **C08, tuples outside of the arrangement.** A tuple with an entry outside of the batch shape, or with the wrong
number of entries, raises an index error; without a batch shape any tuple raises. -/
theorem C08_tuple_outside {α : Type*} (o : CloudObj α) (sh : List ℕ)
    (h : (o.setBatchShape (some sh)).1 = .ok ()) (ix : List ℕ) :
    (¬ List.Forall₂ (fun i s => i < s) ix sh →
      (o.setBatchShape (some sh)).2.getPointsTuple ix = .error .indexError) ∧
    (o.segShape = none → o.getPointsTuple ix = .error .typeError) := by
  have hp : sh.prod = o.c.B := by
    by_contra hp
    rw [C08_rejected_unchanged o sh hp] at h
    simp at h
  have hseg : (o.setBatchShape (some sh)).2.segShape = some sh := by
    unfold setBatchShape
    simp only [if_pos hp]
    repeat' split
    all_goals rfl
  refine ⟨fun hx => ?_, fun hn => ?_⟩
  · unfold getPointsTuple
    rw [hseg]
    simp only [rowMajor_none sh ix hx]
  · unfold getPointsTuple
    rw [hn]

/-- **C08, negation with an empty element.** With an empty batch element and
sizes already queried, a shape with the right product raises, and the object
has been changed all the same (its batch shape is the new one). -/
theorem C08_accepts_false :
    let o := (ofCloud (⟨2, ![5, 6], ![0, 2], 3⟩ : Cloud ℤ)).afterAll [.getSizes]
    (o.setBatchShape (some [3, 1])).1 = .error .invalidArgument ∧
    o.batchShape = none ∧ (o.setBatchShape (some [3, 1])).2.batchShape = some [3, 1] := by
  decide

/-- Non-vacuity of C08: a 2×3 arrangement. -/
example : let o := ofCloud (⟨6, ![(10 : ℤ), 11, 12, 13, 14, 15], ![5, 4, 3, 2, 1, 0], 6⟩)
    (o.setBatchShape (some [2, 3])).1 = .ok () ∧
    (multiIndices [2, 3])[4]? = some [1, 1] ∧
    (o.setBatchShape (some [2, 3])).2.getPointsTuple [1, 1] = .ok [11] := by decide

/-! ## C09 -/

/-- **C09, decision.** Exactly the documented argument combinations are
rejected. -/
theorem C09_validation (a : CtorShape) :
    (∃ e, checkValidInput a = .error e) ↔
      (a.ndims = 1 ∨ (a.ndims = 2 ∧ a.hasSizes = false ∧ a.batchIds = none) ∨
        (a.ndims = 2 ∧ ∃ m, a.batchIds = some m ∧ m ≠ a.numPoints)) := by
  obtain ⟨nd, np, hs, bi⟩ := a
  unfold checkValidInput
  cases bi with
  | none =>
    by_cases h1 : nd = 1 <;> by_cases h2 : nd = 2 <;> cases hs <;> simp_all
  | some m =>
    by_cases h1 : nd = 1 <;> by_cases h2 : nd = 2 <;> by_cases h3 : np = m <;> cases hs <;>
      simp_all <;> omega

/-- **C09, kind of error.** `ValueError` for missing information or 1-D input,
`AssertionError` for a length mismatch. -/
theorem C09_error_kind (a : CtorShape) :
    (checkValidInput a = .error .valueError ↔
      (a.ndims = 1 ∨ (a.ndims = 2 ∧ a.hasSizes = false ∧ a.batchIds = none))) ∧
    (checkValidInput a = .error .assertionError ↔
      (a.ndims = 2 ∧ ∃ m, a.batchIds = some m ∧ m ≠ a.numPoints)) := by
  obtain ⟨nd, np, hs, bi⟩ := a
  unfold checkValidInput
  cases bi with
  | none =>
    by_cases h1 : nd = 1 <;> by_cases h2 : nd = 2 <;> cases hs <;> simp_all
  | some m =>
    by_cases h1 : nd = 1 <;> by_cases h2 : nd = 2 <;> by_cases h3 : np = m <;> cases hs <;>
      simp_all <;> omega

/-- **C09, batch size.** A cloud constructed from points and batch ids without
a batch size has as many ids as points and every id is below the batch size,
which is the least such number. -/
theorem C09_batch_size {α : Type*} (pts : List α) (ids : List ℕ) (sizes : Option (List ℕ))
    (r : RawCloud α) (h : newSegmented pts (some ids) sizes none = .ok r) :
    r.pts = pts ∧ r.ids = ids ∧ ∃ hl : r.ids.length = r.pts.length, (r.toCloud hl).Valid ∧
      (ids ≠ [] → ∃ i ∈ ids, r.B = i + 1) := by
  unfold newSegmented at h
  split at h
  · simp at h
  · rename_i hc
    have hlen : ids.length = pts.length := by
      by_contra hne
      have := (C09_validation ⟨2, pts.length, sizes.isSome, (some ids).map List.length⟩).mpr
        (Or.inr (Or.inr ⟨rfl, ids.length, rfl, hne⟩))
      obtain ⟨e, he⟩ := this
      rw [he] at hc
      simp at hc
    simp only [initFromSegmented, Except.ok.injEq] at h
    subst h
    refine ⟨rfl, rfl, hlen, ?_, ?_⟩
    · intro i
      simp only [RawCloud.toCloud]
      have hmem : ids[i.val]'(by rw [hlen]; exact i.isLt) ∈ ids := List.getElem_mem _
      cases hm : ids.max? with
      | none =>
        rw [List.max?_eq_none_iff] at hm
        have h0 := i.isLt
        have h1 : pts.length = 0 := by rw [← hlen, hm]; rfl
        exact absurd h0 (by change ¬ (i.val < pts.length); omega)
      | some m =>
        have hle := (List.max?_eq_some_iff.mp hm).2
        exact Nat.lt_succ_of_le (hle _ hmem)
    · intro hne
      cases hm : ids.max? with
      | none => rw [List.max?_eq_none_iff] at hm; exact absurd hm hne
      | some m => exact ⟨m, (List.max?_eq_some_iff.mp hm).1, by simp⟩

example : (newSegmented ['a', 'b', 'c'] (some [1, 0, 4]) none none).toOption.map (·.B) = some 5 := by
  decide

/-! ## C67: sizes given with 2-D points -/

/-- **C67, negation.** The documented requirement `sum(sizes) == N` is not
checked: mismatching sizes are accepted, and leave fewer batch ids than
points. -/
theorem C67_sizes_checked_false :
    ¬ (∀ (pts : List ℤ) (sizes : List ℕ) (r : RawCloud ℤ),
        newSegmented pts none (some sizes) none = .ok r → r.ids.length = r.pts.length) := by
  intro h
  have := h [1, 2, 3] [1, 1] ⟨[1, 2, 3], [0, 1], 2⟩ rfl
  simp at this

theorem repeatRange_flatMap (sizes : List ℕ) (k : ℕ) (b : ℕ) :
    ((sizes.zipIdx k).flatMap (fun p => List.replicate p.1 p.2)).count b =
      if k ≤ b ∧ b < k + sizes.length then sizes.getD (b - k) 0 else 0 := by
  induction sizes generalizing k with
  | nil =>
    rw [if_neg (by simp)]
    rfl
  | cons a l ih =>
    simp only [List.zipIdx_cons, List.flatMap_cons, List.count_append, ih,
      List.count_replicate, List.length_cons]
    by_cases h1 : b = k
    · subst h1
      simp
    · rw [if_neg (by simpa using fun h => h1 h.symm)]
      by_cases h2 : k + 1 ≤ b ∧ b < k + 1 + l.length
      · rw [if_pos h2, if_pos (by omega)]
        have e : b - k = (b - (k + 1)) + 1 := by omega
        rw [e]
        simp
      · rw [if_neg h2, if_neg (by omega)]

theorem repeatRange_sorted_aux (sizes : List ℕ) (k : ℕ) :
    ((sizes.zipIdx k).flatMap (fun p => List.replicate p.1 p.2)).Pairwise (· ≤ ·) ∧
    ∀ x ∈ (sizes.zipIdx k).flatMap (fun p => List.replicate p.1 p.2), k ≤ x := by
  induction sizes generalizing k with
  | nil => simp
  | cons a l ih =>
    obtain ⟨h1, h2⟩ := ih (k + 1)
    simp only [List.zipIdx_cons, List.flatMap_cons]
    constructor
    · rw [List.pairwise_append]
      refine ⟨List.pairwise_replicate.mpr (Or.inr le_rfl), h1, ?_⟩
      intro x hx y hy
      rw [List.eq_of_mem_replicate hx]
      have := h2 y hy
      omega
    · intro x hx
      rcases List.mem_append.mp hx with hx | hx
      · rw [List.eq_of_mem_replicate hx]
      · have := h2 x hx; omega

theorem repeatRange_sorted (sizes : List ℕ) : (repeatRange sizes).Pairwise (· ≤ ·) :=
  (repeatRange_sorted_aux sizes 0).1

theorem count_repeatRange (sizes : List ℕ) (b : ℕ) :
    (repeatRange sizes).count b = sizes.getD b 0 := by
  unfold repeatRange
  rw [repeatRange_flatMap]
  split
  · simp
  · rename_i h
    rw [List.getD_eq_getElem?_getD, List.getElem?_eq_none (by omega)]
    rfl

/-- **C67, what holds.** With `sum(sizes) = N` the constructor succeeds, batch
ids are non-decreasing and element `b` gets exactly `sizes[b]` points. -/
theorem C67_sizes_partial {α : Type*} (pts : List α) (sizes : List ℕ) (h : sizes.sum = pts.length) :
    ∃ r, newSegmented pts none (some sizes) none = .ok r ∧ r.pts = pts ∧ r.B = sizes.length ∧
      r.ids.length = pts.length ∧ r.ids.Pairwise (· ≤ ·) ∧
      ∀ b (hb : b < sizes.length), r.ids.count b = sizes[b] := by
  refine ⟨⟨pts, repeatRange sizes, sizes.length⟩, ?_, rfl, rfl, ?_, repeatRange_sorted sizes, ?_⟩
  · simp [newSegmented, checkValidInput, initFromSegmented]
  · simp [repeatRange_length, h]
  · intro b hb
    simp only [count_repeatRange]
    rw [List.getD_eq_getElem?_getD, List.getElem?_eq_getElem hb]
    rfl

/-! ## C66: batch shape of padded clouds -/

/-- **C66, negation.** For a cloud constructed from padded input, a successful
`set_batch_shape` does not change the shape `get_points()` returns: the stored
closure keeps the shape of the constructor argument. -/
theorem C66_padded_set_batch_shape_false :
    ∃ o : CloudObj ℤ, newPadded [4] 1 [[1], [2], [3], [4]] none none = .ok o ∧
      (o.setBatchShape (some [2, 2])).1 = .ok () ∧
      ((o.setBatchShape (some [2, 2])).2.getPointsPadded none).1 = .ok ([4], [[1], [2], [3], [4]]) ∧
      (o.setBatchShape (some [2, 2])).2.getSizes.1 = .ok ([2, 2], [1, 1, 1, 1]) := by
  refine ⟨_, rfl, by decide, by decide, by decide⟩

/-- **C66, what holds.** For a cloud given by batch ids (no empty element) the
shape of the padded view is the batch shape most recently set. -/
theorem C66_set_batch_shape_partial {α : Type*} [Zero α] (c : Cloud α) (hv : c.Valid)
    (hne : c.NoEmpty) (hist : List Call) (hk : ∀ k ∈ hist, k.limit = none) (sh : List ℕ)
    (hp : sh.prod = c.B) :
    ∃ blocks, (((ofCloud c).afterAll (hist ++ [.setBatchShape (some sh)])).getPointsPadded none).1 =
      .ok (sh, blocks) := by
  have hc : ((ofCloud c).afterAll hist).c = c := afterAll_c _ _
  have hacc := (C08_accepts_iff_partial c hv hne hist sh).mpr hp
  have hsplit : (ofCloud c).afterAll (hist ++ [.setBatchShape (some sh)]) =
      (((ofCloud c).afterAll hist).setBatchShape (some sh)).2 := by
    simp [afterAll, List.foldl_append, after]
  set o := (ofCloud c).afterAll hist with ho
  have hok : o.SizesOk := afterAll_ok _ _ (ofCloud_ok c)
  have hsize : ∀ s, (o.setBatchShape (some sh)).2.sizes = some s → s.1 = sh := by
    intro s hs
    unfold setBatchShape at hs hacc
    simp only [hc, if_pos hp] at hs hacc
    split at hs
    · rename_i h0; simp [h0] at hs
    · rename_i s0 sz0 h0
      rw [h0] at hacc
      simp only at hacc
      split at hs
      · simp only [Option.some.injEq] at hs; rw [← hs]
      · rename_i hne'
        rw [if_neg hne'] at hacc
        simp at hacc
  have hbs : (o.setBatchShape (some sh)).2.batchShape = some sh := by
    unfold setBatchShape
    simp only [hc, if_pos hp]
    repeat' split
    all_goals rfl
  have hc' : (o.setBatchShape (some sh)).2.c = c := by rw [setBatchShape_c, hc]
  have hun := afterAll_unflatten (ofCloud c) (hist ++ [.setBatchShape (some sh)]) (Or.inl rfl) (by
    intro k hk'
    rcases List.mem_append.mp hk' with h | h
    · exact hk k h
    · simp only [List.mem_singleton] at h; subst h; rfl)
  have hok' := afterAll_ok (ofCloud c) (hist ++ [.setBatchShape (some sh)]) (ofCloud_ok c)
  have hsh' := afterAll_shapeOk (ofCloud c) (hist ++ [.setBatchShape (some sh)]) (ofCloud_shapeOk c)
  rw [hsplit] at hun hok' hsh' ⊢
  generalize (o.setBatchShape (some sh)).2 = o2 at *
  subst hc'
  have heff : o2.effLimit none = some none := by
    unfold effLimit
    rcases hun with h | h <;> rw [h]
  obtain ⟨sh2, h1, h2⟩ := getPointsPadded_sorted o2 hok' hsh' hv hne none none heff _ rfl (by
      intro b hb
      apply foldr_max_ge
      simp only [List.mem_map, List.mem_range]
      exact ⟨b, hb, rfl⟩)
  -- the shape of the result is the shape of the sizes
  have hgs : ∀ sh3 sz3, o2.getSizes.1 = .ok (sh3, sz3) → sh3 = sh := by
    intro sh3 sz3 h3
    unfold getSizes at h3
    dsimp only at h3
    split at h3
    · rename_i s hs
      simp only [Except.ok.injEq] at h3
      have := hsize s hs
      rw [h3] at this
      exact this
    · rw [hbs] at h3
      dsimp only at h3
      split at h3
      · simp only [Except.ok.injEq, Prod.mk.injEq] at h3
        exact h3.1.symm
      · simp at h3
  have hsh2 : sh2 = sh := by
    have hpad : ∃ o3 : CloudObj α, o3.getSizes.1 = o2.getSizes.1 ∧ o3.c = o2.c ∧
        ∃ sz, o3.getSizes.1 = .ok (sh2, sz) := by
      obtain ⟨c2, sz2, bs2, ss2, u2⟩ := o2
      refine ⟨⟨c2, sz2, bs2, ss2, some (.sorted none)⟩, ?_, rfl, ?_⟩
      · cases sz2 <;> simp [getSizes]
        cases bs2 <;> simp
        split <;> rfl
      · have e : (CloudObj.getPointsPadded ⟨c2, sz2, bs2, ss2, u2⟩ none).1 =
            (applyUnflatten ⟨c2, sz2, bs2, ss2, some (.sorted none)⟩ (.sorted none) c2.pts).1 := by
          simp only at hun
          rcases hun with h | h <;> subst h <;> rfl
        rw [e] at h1
        unfold applyUnflatten at h1
        dsimp only at h1
        split at h1
        · simp at h1
        · rename_i sh4 sz4 o4 heq
          rw [heq]
          split at h1
          · simp at h1
          · simp only [Except.ok.injEq, Prod.mk.injEq] at h1
            exact ⟨sz4, by rw [h1.1]⟩
    obtain ⟨o3, h3, _, sz, h4⟩ := hpad
    exact hgs sh2 sz (by rw [← h3, h4])
  exact ⟨_, by rw [h1, hsh2]⟩

/-! ## C10 -/

/-- **C10 (clouds given by batch ids).** For every history of calls without
`max_num_points`, the padded output of a layer is accepted as padded input and
gives back exactly the per-point features in the order of the cloud's points. -/
theorem C10_feature_roundtrip {α β : Type*} [Zero α] [Zero β] (c : Cloud α) (hv : c.Valid)
    (hne : c.NoEmpty) (hist : List Call) (hk : ∀ k ∈ hist, k.limit = none)
    (f : Fin ((ofCloud c).afterAll hist).c.n → β) (rs : Bool) :
    ∃ sh bl, ((ofCloud c).afterAll hist).formatOutput f rs true = .ok (.padded sh bl) ∧
      (((ofCloud c).afterAll hist).flattenFeatures bl).1 = .ok f := by
  have hc : ((ofCloud c).afterAll hist).c = c := afterAll_c _ _
  have hun := afterAll_unflatten (ofCloud c) hist (Or.inl rfl) hk
  have hok := afterAll_ok (ofCloud c) hist (ofCloud_ok c)
  have hsh := afterAll_shapeOk (ofCloud c) hist (ofCloud_shapeOk c)
  generalize (ofCloud c).afterAll hist = o at *
  subst hc
  obtain ⟨sh, h1, h2⟩ := applyUnflatten_sorted o hok hsh hv hne none _ rfl (by
      intro b hb
      apply foldr_max_ge
      simp only [List.mem_map, List.mem_range]
      exact ⟨b, hb, rfl⟩) f
  refine ⟨sh, (List.range o.c.B).map (fun b => (o.c.members b).map f ++
      List.replicate (((List.range o.c.B).map (fun b => (o.c.members b).length)).foldr max 0 -
        (o.c.members b).length) 0), ?_, ?_⟩
  · unfold formatOutput
    rw [if_pos rfl]
    simp only [Option.getD_none] at h1
    rcases hun with h | h <;> rw [h] <;> simp only <;> rw [h1]
  · obtain ⟨sh', hs1, hs2⟩ := getSizes_success o hok hsh hv hne
    have hflat : List.ofFn (f ∘ o.c.sortedIndicesBatch) =
        ((List.range o.c.B).map (fun b => (o.c.members b).map f)).flatten := by
      have : List.ofFn (f ∘ o.c.sortedIndicesBatch) =
          (List.ofFn o.c.sortedIndicesBatch).map f := by
        simp [List.ofFn_eq_map, List.map_map]
      rw [this]
      unfold Cloud.sortedIndicesBatch
      rw [argsortAsc_flatMap o.c.batch o.c.B hv, List.map_flatMap, List.flatMap_def]
      rfl
    have hrows : ∀ V, flattenRows ((List.range o.c.B).map (fun b => (o.c.members b).map f ++
          List.replicate (V - (o.c.members b).length) 0))
        ((List.range o.c.B).map (fun b => (o.c.members b).length)) =
        List.ofFn (f ∘ o.c.sortedIndicesBatch) := by
      intro V
      rw [hflat, ← flattenRows_scatter V]
      simp [List.map_map, Function.comp_def]
    unfold flattenFeatures
    split
    · rename_i e o' heq
      rw [heq] at hs1; simp at hs1
    · rename_i sh3 sz3 o' heq
      rw [heq] at hs1
      simp only [Except.ok.injEq, Prod.mk.injEq] at hs1
      obtain ⟨rfl, rfl⟩ := hs1
      have hl := congrArg List.length (hrows (((List.range o.c.B).map
        (fun b => (o.c.members b).length)).foldr max 0))
      rw [List.length_ofFn] at hl
      rw [dif_pos hl]
      simp only [Except.ok.injEq]
      funext i
      simp only [hrows, List.getElem_ofFn, Function.comp]
      congr 1
      exact Equiv.apply_symm_apply o.c.sortedIndicesBatch i

theorem argsortAsc_eq_refl {n : ℕ} {κ : Type*} [LinearOrder κ] (key : Fin n → κ)
    (h : ∀ i j, i ≤ j → key i ≤ key j) : argsortAsc key = Equiv.refl _ := by
  have e : argsortList (fun i j : Fin n => key i ≤ key j) = List.finRange n := by
    refine List.Perm.eq_of_pairwise (le := StableLT (fun i j => key i ≤ key j)) ?_
      (argsortList_stable _ (fun i j => le_total _ _) (fun i j k => le_trans)) ?_
      (argsortList_perm _)
    · intro i j _ _ hij hji
      exact absurd (hij.2 hji.1) (not_lt.mpr (le_of_lt (hji.2 hij.1)))
    · exact (List.pairwise_lt_finRange n).imp (fun hij => ⟨h _ _ (le_of_lt hij), fun _ => hij⟩)
  ext k
  simp [argsortAsc, argsort, e]

/-- For a cloud from padded input the flat sizes stay those given. -/
theorem after_sizes_flat {α : Type*} [Zero α] (o : CloudObj α) (k : Call) (sh sz : List ℕ)
    (h : o.sizes = some (sh, sz)) : ∃ sh', (o.after k).sizes = some (sh', sz) := by
  have hg : ∀ o' : CloudObj α, o'.sizes = o.sizes → o'.getSizes.2.sizes = some (sh, sz) := by
    intro o' ho'
    unfold getSizes
    dsimp only
    split
    · rw [ho', h]
    · rename_i h0; rw [ho', h] at h0; simp at h0
  have hu : ∀ m, (o.getUnflatten m).2.sizes = o.sizes := by
    intro m; unfold getUnflatten; split <;> rfl
  cases k with
  | getSizes => exact ⟨sh, hg o rfl⟩
  | getPadded m =>
    simp only [after, getPointsPadded]
    rcases applyUnflatten_sizes (o.getUnflatten m).2 (o.getUnflatten m).1 (o.getUnflatten m).2.c.pts
      with h1 | h1 <;> rw [h1]
    · exact ⟨sh, by rw [hu, h]⟩
    · exact ⟨sh, hg _ (hu m)⟩
  | getId i => exact ⟨sh, h⟩
  | getUnflatten m => exact ⟨sh, by simp only [after]; rw [hu, h]⟩
  | setBatchShape s =>
    simp only [after, setBatchShape]
    split
    · exact ⟨sh, h⟩
    · split
      · rw [h]
        simp only
        split
        · exact ⟨_, rfl⟩
        · exact ⟨sh, rfl⟩
      · exact ⟨sh, h⟩

theorem afterAll_sizes_flat {α : Type*} [Zero α] (o : CloudObj α) (hist : List Call)
    (sh sz : List ℕ) (h : o.sizes = some (sh, sz)) :
    ∃ sh', (o.afterAll hist).sizes = some (sh', sz) := by
  unfold afterAll
  induction hist generalizing o sh with
  | nil => exact ⟨sh, h⟩
  | cons k t ih =>
    rw [List.foldl_cons]
    obtain ⟨sh', h'⟩ := after_sizes_flat o k sh sz h
    exact ih _ sh' h'

/-- **C10 (clouds from padded input).** The same round trip for a cloud
constructed from a padded tensor with sizes (empty elements allowed), after
every history of calls. -/
theorem C10_feature_roundtrip_padded {α β : Type*} [Zero α] [Zero β] (shape : List ℕ) (V : ℕ)
    (blocks : List (List α)) (sizes : List ℕ)
    (hb : blocks.length = shape.prod) (hs : sizes.length = shape.prod)
    (hV : ∀ b ∈ blocks, b.length = V) (hle : ∀ s ∈ sizes, s ≤ V) :
    ∃ o, newPadded shape V blocks (some sizes) none = .ok o ∧
      ∀ (hist : List Call) (f : Fin (o.afterAll hist).c.n → β) (rs : Bool),
        ∃ bl, (o.afterAll hist).formatOutput f rs true = .ok (.padded shape bl) ∧
          (∀ l ∈ bl, l.length = V) ∧
          ((o.afterAll hist).flattenFeatures bl).1 = .ok f := by
  have hlen : blocks.length = sizes.length := by rw [hb, hs]
  have hmap := map_length_zipWith_take V blocks sizes hlen hV hle
  have hl : (repeatRange sizes).length = (flattenRows blocks sizes).length := by
    rw [repeatRange_length, flattenRows_eq, List.length_flatten, hmap]
  refine ⟨⟨(⟨flattenRows blocks sizes, repeatRange sizes, shape.prod⟩ : RawCloud α).toCloud hl,
      some (shape, sizes), some shape, some shape, some (.padded shape sizes V)⟩, ?_, ?_⟩
  · simp [newPadded, hl]
  intro hist
  set o : CloudObj α := ⟨(⟨flattenRows blocks sizes, repeatRange sizes, shape.prod⟩ :
    RawCloud α).toCloud hl, some (shape, sizes), some shape, some shape,
    some (.padded shape sizes V)⟩ with ho
  have h1 : (o.afterAll hist).unflatten = some (.padded shape sizes V) :=
    afterAll_unflatten_some o hist _ rfl
  obtain ⟨sh', h2⟩ := afterAll_sizes_flat o hist shape sizes rfl
  have h3 : (o.afterAll hist).c = o.c := afterAll_c o hist
  have hmono : ∀ i j, i ≤ j → o.c.batch i ≤ o.c.batch j := by
    intro i j hij
    rcases eq_or_lt_of_le hij with rfl | hij
    · exact le_rfl
    · have := List.pairwise_iff_getElem.mp (repeatRange_sorted sizes) i.val j.val
        (by rw [hl]; exact i.isLt) (by rw [hl]; exact j.isLt) hij
      exact this
  have hsum : o.c.n = sizes.sum := by
    change (flattenRows blocks sizes).length = _
    rw [← hl, repeatRange_length]
  clear_value o
  generalize o.afterAll hist = o2 at *
  obtain ⟨c2, sz2, bs2, ss2, u2⟩ := o2
  simp only at h1 h2 h3
  subst h1; subst h2; subst h3
  intro f rs
  -- cut the features into consecutive pieces
  obtain ⟨Ls, hLs1, hLs2⟩ : ∃ Ls : List (List β), Ls.map List.length = sizes ∧
      Ls.flatten = List.ofFn f := by
    have gen : ∀ (sz : List ℕ) (l : List β), l.length = sz.sum →
        ∃ Ls : List (List β), Ls.map List.length = sz ∧ Ls.flatten = l := by
      intro sz
      induction sz with
      | nil => intro l hl; exact ⟨[], rfl, by simpa using hl⟩
      | cons a t ih =>
        intro l hl
        simp only [List.sum_cons] at hl
        obtain ⟨Ls, h1, h2⟩ := ih (l.drop a) (by simp [hl])
        exact ⟨l.take a :: Ls, by simp [h1, hl], by simp [h2]⟩
    apply gen
    rw [List.length_ofFn]
    exact hsum
  have hLle : ∀ l ∈ Ls, l.length ≤ V := by
    intro l hl
    apply hle
    rw [← hLs1]
    exact List.mem_map_of_mem hl
  have hid : o.c.sortedIndicesBatch = Equiv.refl _ := argsortAsc_eq_refl _ hmono
  refine ⟨Ls.map (fun l => l ++ List.replicate (V - l.length) 0), ?_, ?_, ?_⟩
  · unfold formatOutput
    simp only [if_true, applyUnflatten]
    rw [← hLs2, scatterRows_flatten' V sizes Ls hLs1 hLle]
  · intro l hl
    simp only [List.mem_map] at hl
    obtain ⟨l', hl', rfl⟩ := hl
    have := hLle l' hl'
    simp only [List.length_append, List.length_replicate]
    omega
  · have hrows : flattenRows (Ls.map (fun l => l ++ List.replicate (V - l.length) 0)) sizes =
        List.ofFn f := by
      rw [← hLs1, flattenRows_scatter, hLs2]
    unfold flattenFeatures
    simp only [getSizes]
    have hl2 := congrArg List.length hrows
    rw [List.length_ofFn] at hl2
    rw [dif_pos hl2]
    simp only [Except.ok.injEq]
    funext i
    simp only [hrows, List.getElem_ofFn]
    congr 1
    apply Fin.ext
    simp [hid]

/-- **C10, `return_sorted`.** The rows are the features listed batch element by
batch element, within an element in input order (stable). -/
theorem C10_return_sorted {α β : Type*} [Zero β] (o : CloudObj α) (hv : o.c.Valid)
    (f : Fin o.c.n → β) :
    o.formatOutput f true false = .ok (.rows ((List.range o.c.B).flatMap
      (fun b => ((List.finRange o.c.n).filter (fun i => o.c.batch i = b)).map f))) := by
  have : List.ofFn (f ∘ o.c.sortedIndicesBatch) =
      (List.ofFn o.c.sortedIndicesBatch).map f := by
    simp [List.ofFn_eq_map, List.map_map]
  simp only [formatOutput, Bool.false_eq_true, if_false, if_true]
  rw [this]
  unfold Cloud.sortedIndicesBatch
  rw [argsortAsc_flatMap o.c.batch o.c.B hv, List.map_flatMap]

/-- **C10, plain output and 2-D input** keep the order of the points. -/
theorem C10_plain {α β : Type*} [Zero β] (o : CloudObj α) (f : Fin o.c.n → β) :
    ∃ rows, o.formatOutput f false false = .ok (.rows rows) ∧ o.flattenFeatures2D rows = .ok f := by
  refine ⟨List.ofFn f, by simp [formatOutput], ?_⟩
  simp [flattenFeatures2D]

/-- C10, without the hypothesis: an empty batch element keeps the round trip for
the flat order but shifts the blocks (see `C06_padded_view_false`); with a
non-sorted cloud the round trip is non-trivial: -/
example : let o := ofCloud (⟨3, ![(0 : ℤ), 0, 0], ![1, 0, 1], 2⟩)
    (o.flattenFeatures [[(20 : ℤ), 0], [10, 30]]).1.map List.ofFn = .ok [10, 20, 30] := by decide

end PC
