import Verif.Kernel
import Mathlib.Tactic.LinearCombination
import Mathlib.Tactic.FinCases

/-!
# Properties C47, C48: rotations and kernel points; C78: cube kernel points
-/

set_option linter.unusedVariables false

namespace PC

/-- Specification: dot product and squared distance of points in space. -/
def dot3 (p q : Fin 3 → ℝ) : ℝ := p 0 * q 0 + p 1 * q 1 + p 2 * q 2

/-- Squared Euclidean distance. -/
def dist3sq (p q : Fin 3 → ℝ) : ℝ := (p 0 - q 0) ^ 2 + (p 1 - q 1) ^ 2 + (p 2 - q 2) ^ 2

theorem vecMul_rotX (a : ℝ) (p : Fin 3 → ℝ) : Matrix.vecMul p (rotX a) =
    ![p 0, p 1 * Real.cos a - p 2 * Real.sin a, p 1 * Real.sin a + p 2 * Real.cos a] := by
  ext d
  fin_cases d <;> simp [rotX, Matrix.vecMul, dotProduct, Fin.sum_univ_three] <;> ring

theorem vecMul_rotY (a : ℝ) (p : Fin 3 → ℝ) : Matrix.vecMul p (rotY a) =
    ![p 0 * Real.cos a + p 2 * Real.sin a, p 1, - p 0 * Real.sin a + p 2 * Real.cos a] := by
  ext d
  fin_cases d <;> simp [rotY, Matrix.vecMul, dotProduct, Fin.sum_univ_three]

theorem vecMul_rotZ (a : ℝ) (p : Fin 3 → ℝ) : Matrix.vecMul p (rotZ a) =
    ![p 0 * Real.cos a - p 1 * Real.sin a, p 0 * Real.sin a + p 1 * Real.cos a, p 2] := by
  ext d
  fin_cases d <;> simp [rotZ, Matrix.vecMul, dotProduct, Fin.sum_univ_three] <;> ring

theorem rotPt_eq (ang : Fin 3 → ℝ) (p : Fin 3 → ℝ) :
    rotPt ang p = Matrix.vecMul (Matrix.vecMul (Matrix.vecMul p (rotX (ang 0))) (rotY (ang 1))) (rotZ (ang 2)) := by
  unfold rotPt rotMat
  rw [Matrix.vecMul_vecMul, Matrix.vecMul_vecMul, Matrix.mul_assoc]

/-- **C47, dot products.** A random rotation preserves all dot products. -/
theorem C47_dot (ang : Fin 3 → ℝ) (p q : Fin 3 → ℝ) : dot3 (rotPt ang p) (rotPt ang q) = dot3 p q := by
  have hx : ∀ a p q, dot3 (Matrix.vecMul p (rotX a)) (Matrix.vecMul q (rotX a)) = dot3 p q := by
    intro a p q
    rw [vecMul_rotX, vecMul_rotX]
    simp only [dot3, Matrix.cons_val]
    linear_combination (p 1 * q 1 + p 2 * q 2) * Real.sin_sq_add_cos_sq a
  have hy : ∀ a p q, dot3 (Matrix.vecMul p (rotY a)) (Matrix.vecMul q (rotY a)) = dot3 p q := by
    intro a p q
    rw [vecMul_rotY, vecMul_rotY]
    simp only [dot3, Matrix.cons_val]
    linear_combination (p 0 * q 0 + p 2 * q 2) * Real.sin_sq_add_cos_sq a
  have hz : ∀ a p q, dot3 (Matrix.vecMul p (rotZ a)) (Matrix.vecMul q (rotZ a)) = dot3 p q := by
    intro a p q
    rw [vecMul_rotZ, vecMul_rotZ]
    simp only [dot3, Matrix.cons_val]
    linear_combination (p 0 * q 0 + p 1 * q 1) * Real.sin_sq_add_cos_sq a
  rw [rotPt_eq, rotPt_eq, hz, hy, hx]

theorem rotPt_sub (ang : Fin 3 → ℝ) (p q : Fin 3 → ℝ) : rotPt ang (p - q) = rotPt ang p - rotPt ang q := by
  unfold rotPt
  rw [Matrix.sub_vecMul]

/-- **C47, isometry.** Random rotations preserve distances and norms, for all
angles and all points. -/
theorem C47_isometry (ang : Fin 3 → ℝ) (p q : Fin 3 → ℝ) :
    dist3sq (rotPt ang p) (rotPt ang q) = dist3sq p q ∧ rotPt ang 0 = 0 := by
  constructor
  · have h := C47_dot ang (p - q) (p - q)
    rw [rotPt_sub] at h
    simp only [dot3, Pi.sub_apply] at h
    unfold dist3sq
    linear_combination h
  · unfold rotPt; rw [Matrix.zero_vecMul]

/-- Specification: the signed volume spanned by three vectors. -/
def vol3 (p q r : Fin 3 → ℝ) : ℝ :=
  p 0 * (q 1 * r 2 - q 2 * r 1) - p 1 * (q 0 * r 2 - q 2 * r 0) + p 2 * (q 0 * r 1 - q 1 * r 0)

/-- **C47, orientation.** The signed volume of any three vectors is preserved. -/
theorem C47_orientation (ang : Fin 3 → ℝ) (p q r : Fin 3 → ℝ) :
    vol3 (rotPt ang p) (rotPt ang q) (rotPt ang r) = vol3 p q r := by
  have hx : ∀ a p q r, vol3 (Matrix.vecMul p (rotX a)) (Matrix.vecMul q (rotX a)) (Matrix.vecMul r (rotX a)) =
      vol3 p q r := by
    intro a p q r
    rw [vecMul_rotX, vecMul_rotX, vecMul_rotX]
    simp only [vol3, Matrix.cons_val]
    linear_combination (p 0 * (q 1 * r 2 - q 2 * r 1) - p 1 * (q 0 * r 2 - q 2 * r 0) +
      p 2 * (q 0 * r 1 - q 1 * r 0)) * Real.sin_sq_add_cos_sq a
  have hy : ∀ a p q r, vol3 (Matrix.vecMul p (rotY a)) (Matrix.vecMul q (rotY a)) (Matrix.vecMul r (rotY a)) =
      vol3 p q r := by
    intro a p q r
    rw [vecMul_rotY, vecMul_rotY, vecMul_rotY]
    simp only [vol3, Matrix.cons_val]
    linear_combination (p 0 * (q 1 * r 2 - q 2 * r 1) - p 1 * (q 0 * r 2 - q 2 * r 0) +
      p 2 * (q 0 * r 1 - q 1 * r 0)) * Real.sin_sq_add_cos_sq a
  have hz : ∀ a p q r, vol3 (Matrix.vecMul p (rotZ a)) (Matrix.vecMul q (rotZ a)) (Matrix.vecMul r (rotZ a)) =
      vol3 p q r := by
    intro a p q r
    rw [vecMul_rotZ, vecMul_rotZ, vecMul_rotZ]
    simp only [vol3, Matrix.cons_val]
    linear_combination (p 0 * (q 1 * r 2 - q 2 * r 1) - p 1 * (q 0 * r 2 - q 2 * r 0) +
      p 2 * (q 0 * r 1 - q 1 * r 0)) * Real.sin_sq_add_cos_sq a
  rw [rotPt_eq, rotPt_eq, rotPt_eq, hz, hy, hx]

/-- Rotations are injective (needed for distinctness below). -/
theorem rotPt_injective (ang : Fin 3 → ℝ) : Function.Injective (rotPt ang) := by
  intro p q h
  have h1 := (C47_isometry ang p q).1
  rw [h] at h1
  have h2 : dist3sq p q = 0 := by rw [← h1]; simp [dist3sq]
  unfold dist3sq at h2
  have a0 := sq_nonneg (p 0 - q 0)
  have a1 := sq_nonneg (p 1 - q 1)
  have a2 := sq_nonneg (p 2 - q 2)
  have e0 : (p 0 - q 0) ^ 2 = 0 := by linarith
  have e1 : (p 1 - q 1) ^ 2 = 0 := by linarith
  have e2 : (p 2 - q 2) ^ 2 = 0 := by linarith
  ext d
  fin_cases d
  · exact sub_eq_zero.mp (pow_eq_zero_iff (two_ne_zero)|>.mp e0)
  · exact sub_eq_zero.mp (pow_eq_zero_iff (two_ne_zero)|>.mp e1)
  · exact sub_eq_zero.mp (pow_eq_zero_iff (two_ne_zero)|>.mp e2)

/-! ## C48 -/

/-- Specification: what the documentation promises for `n` kernel points: `n`
pairwise different points of the closed unit ball. -/
def GoodKernelPoints (n : ℕ) (l : List (Fin 3 → ℝ)) : Prop :=
  l.length = n ∧ l.Nodup ∧ ∀ p ∈ l, dist3sq p 0 ≤ 1

theorem GoodKernelPoints.rotate {n : ℕ} {l : List (Fin 3 → ℝ)} (h : GoodKernelPoints n l) (ang : Fin 3 → ℝ) :
    GoodKernelPoints n (l.map (rotPt ang)) := by
  obtain ⟨h1, h2, h3⟩ := h
  refine ⟨by simpa using h1, h2.map (rotPt_injective ang), ?_⟩
  intro p hp
  obtain ⟨q, hq, rfl⟩ := List.mem_map.mp hp
  have := (C47_isometry ang q 0).1
  rw [(C47_isometry ang q 0).2] at this
  rw [this]
  exact h3 q hq

theorem base5 : ∃ l, basePoints 5 = .ok l ∧ GoodKernelPoints 5 l := by
  have hA : 0 < Real.sqrt (8 / 9) := Real.sqrt_pos.mpr (by norm_num)
  have hB : 0 < Real.sqrt (2 / 9) := Real.sqrt_pos.mpr (by norm_num)
  have hC : 0 < Real.sqrt (2 / 3) := Real.sqrt_pos.mpr (by norm_num)
  have sA : Real.sqrt (8 / 9) ^ 2 = 8 / 9 := Real.sq_sqrt (by norm_num)
  have sB : Real.sqrt (2 / 9) ^ 2 = 2 / 9 := Real.sq_sqrt (by norm_num)
  have sC : Real.sqrt (2 / 3) ^ 2 = 2 / 3 := Real.sq_sqrt (by norm_num)
  generalize hAA : Real.sqrt (8 / 9) = A at *
  generalize hBB : Real.sqrt (2 / 9) = B at *
  generalize hCC : Real.sqrt (2 / 3) = C at *
  refine ⟨_, rfl, rfl, ?_, ?_⟩
  · rw [hAA, hBB, hCC]
    have h1 : A ≠ -B := by linarith
    have h2 : C ≠ -C := by linarith
    simp only [List.nodup_cons, List.mem_cons, List.not_mem_nil, or_false, not_or, List.nodup_nil, not_false_iff,
      and_true]
    refine ⟨⟨?_, ?_, ?_, ?_⟩, ⟨?_, ?_, ?_⟩, ⟨?_, ?_⟩, ?_⟩ <;> intro h
    · have := congrFun h 2; simp at this
    · have := congrFun h 2; simp only [Matrix.cons_val] at this; norm_num at this
    · have := congrFun h 2; simp only [Matrix.cons_val] at this; norm_num at this
    · have := congrFun h 2; simp only [Matrix.cons_val] at this; norm_num at this
    · have := congrFun h 2; simp only [Matrix.cons_val] at this; norm_num at this
    · have := congrFun h 2; simp only [Matrix.cons_val] at this; norm_num at this
    · have := congrFun h 2; simp only [Matrix.cons_val] at this; norm_num at this
    · exact h1 (congrFun h 0)
    · exact h1 (congrFun h 0)
    · exact h2 (congrFun h 1)
  · rw [hAA, hBB, hCC]
    intro p hp
    simp only [List.mem_cons, List.not_mem_nil, or_false] at hp
    rcases hp with rfl | rfl | rfl | rfl | rfl <;> simp [dist3sq] <;> nlinarith

theorem base7 : ∃ l, basePoints 7 = .ok l ∧ GoodKernelPoints 7 l := by
  refine ⟨_, rfl, rfl, ?_, ?_⟩
  · simp only [List.nodup_cons, List.mem_cons, List.not_mem_nil, or_false, not_or, List.nodup_nil, not_false_iff,
      and_true]
    refine ⟨⟨?_, ?_, ?_, ?_, ?_, ?_⟩, ⟨?_, ?_, ?_, ?_, ?_⟩, ⟨?_, ?_, ?_, ?_⟩, ⟨?_, ?_, ?_⟩, ⟨?_, ?_⟩, ?_⟩ <;> intro h <;>
      (have h0 := congrFun h 0; have h1 := congrFun h 1; have h2 := congrFun h 2;
        simp only [Matrix.cons_val] at h0 h1 h2; linarith)
  · intro p hp
    simp only [List.mem_cons, List.not_mem_nil, or_false] at hp
    rcases hp with rfl | rfl | rfl | rfl | rfl | rfl | rfl <;> simp [dist3sq]

/-- Coordinates of the pentagon: the facts used below. -/
theorem pentagon_mem (scale shift : ℝ) (p : Fin 3 → ℝ) (hp : p ∈ pentagon scale shift) :
    (p 0 = scale ∨ p 0 = (Real.sqrt 5 - 1) / 4 * scale ∨ p 0 = -((Real.sqrt 5 + 1) / 4) * scale) ∧
      p 0 ^ 2 + p 1 ^ 2 = scale ^ 2 ∧ p 2 = shift := by
  have h5 : Real.sqrt 5 ^ 2 = 5 := Real.sq_sqrt (by norm_num)
  have hp5 : 0 ≤ Real.sqrt 5 := Real.sqrt_nonneg 5
  have hlt : Real.sqrt 5 ≤ 5 := by nlinarith
  have ha : Real.sqrt (10 + 2 * Real.sqrt 5) ^ 2 = 10 + 2 * Real.sqrt 5 := Real.sq_sqrt (by linarith)
  have hb : Real.sqrt (10 - 2 * Real.sqrt 5) ^ 2 = 10 - 2 * Real.sqrt 5 := Real.sq_sqrt (by linarith)
  unfold pentagon at hp
  simp only [List.map_cons, List.map_nil, List.mem_cons, List.not_mem_nil, or_false, Matrix.cons_val] at hp
  rcases hp with rfl | rfl | rfl | rfl | rfl <;> simp only [Matrix.cons_val]
  · exact ⟨by simp, by ring, by ring⟩
  · exact ⟨by simp, by linear_combination scale ^ 2 / 16 * h5 + scale ^ 2 / 16 * ha, by ring⟩
  · exact ⟨by simp, by linear_combination scale ^ 2 / 16 * h5 + scale ^ 2 / 16 * ha, by ring⟩
  · exact ⟨by simp, by linear_combination scale ^ 2 / 16 * h5 + scale ^ 2 / 16 * hb, by ring⟩
  · exact ⟨by simp, by linear_combination scale ^ 2 / 16 * h5 + scale ^ 2 / 16 * hb, by ring⟩

theorem sqrt5_bounds : 2.2 < Real.sqrt 5 ∧ Real.sqrt 5 < 2.3 := by
  constructor
  · exact Real.lt_sqrt_of_sq_lt (by norm_num)
  · rw [Real.sqrt_lt' (by norm_num)]; norm_num

theorem pentagon_nodup (scale shift : ℝ) (hs : scale ≠ 0) : (pentagon scale shift).Nodup := by
  obtain ⟨hl, hu⟩ := sqrt5_bounds
  have ha : 0 < Real.sqrt (10 + 2 * Real.sqrt 5) := Real.sqrt_pos.mpr (by linarith)
  have hb : 0 < Real.sqrt (10 - 2 * Real.sqrt 5) := Real.sqrt_pos.mpr (by linarith)
  unfold pentagon
  dsimp only
  rw [List.nodup_map_iff]
  · generalize Real.sqrt (10 + 2 * Real.sqrt 5) = A at *
    generalize Real.sqrt (10 - 2 * Real.sqrt 5) = B at *
    generalize Real.sqrt 5 = S at *
    simp only [List.nodup_cons, List.mem_cons, List.not_mem_nil, or_false, not_or, List.nodup_nil, not_false_iff,
      and_true]
    refine ⟨⟨?_, ?_, ?_, ?_⟩, ⟨?_, ?_, ?_⟩, ⟨?_, ?_⟩, ?_⟩ <;> intro h <;>
      (have h0 := congrFun h 0; have h1 := congrFun h 1; simp only [Matrix.cons_val] at h0 h1; linarith)
  · intro p q h
    have h0 := congrFun h 0
    have h1 := congrFun h 1
    have h2 := congrFun h 2
    simp only [Matrix.cons_val] at h0 h1 h2
    ext d
    fin_cases d
    · exact mul_right_cancel₀ hs h0
    · exact mul_right_cancel₀ hs h1
    · exact mul_right_cancel₀ hs (add_right_cancel h2)

theorem base18 : ∃ l, basePoints 18 = .ok l ∧ GoodKernelPoints 18 l := by
  obtain ⟨hl, hu⟩ := sqrt5_bounds
  have h2 : 0 < Real.sqrt 2 := Real.sqrt_pos.mpr (by norm_num)
  have hsc : (0 : ℝ) < 1 / Real.sqrt 2 := by positivity
  have hsc2 : (1 / Real.sqrt 2) ^ 2 = 1 / 2 := by
    rw [div_pow, Real.sq_sqrt (by norm_num)]; norm_num
  have hneg : -1 / Real.sqrt 2 = -(1 / Real.sqrt 2) := by ring
  have hneg2 : (-1 / Real.sqrt 2) ^ 2 = 1 / 2 := by rw [hneg, neg_sq, hsc2]
  refine ⟨_, rfl, ?_, ?_, ?_⟩
  · simp [pentagon]
  · have z0 : ∀ p ∈ ([![0, 0, 0], ![0, 0, 1], ![0, 0, -1]] : List (Fin 3 → ℝ)),
        p 0 ^ 2 + p 1 ^ 2 = 0 := by
      intro p hp
      simp only [List.mem_cons, List.not_mem_nil, or_false] at hp
      rcases hp with rfl | rfl | rfl <;> simp
    have zneg : ∀ p ∈ (pentagon 1 0).map (fun p => -p), p 0 ^ 2 + p 1 ^ 2 = 1 := by
      intro p hp
      obtain ⟨q, hq, rfl⟩ := List.mem_map.mp hp
      have := (pentagon_mem _ _ q hq).2.1
      simp only [Pi.neg_apply]
      linarith
    rw [List.nodup_append, List.nodup_append, List.nodup_append]
    refine ⟨⟨⟨?_, pentagon_nodup _ _ hsc.ne', ?_⟩, ?_, ?_⟩, pentagon_nodup _ _ (by rw [hneg]; linarith), ?_⟩
    · simp only [List.nodup_cons, List.mem_cons, List.not_mem_nil, or_false, not_or, List.nodup_nil, not_false_iff,
        and_true]
      refine ⟨⟨?_, ?_⟩, ?_⟩ <;> intro h <;> (have h1 := congrFun h 2; simp only [Matrix.cons_val] at h1; linarith)
    · intro p hp q hq hpq
      have a := z0 p hp
      have b := (pentagon_mem _ _ q hq).2.1
      rw [hpq] at a; rw [hsc2] at b; linarith
    · exact (pentagon_nodup _ _ one_ne_zero).map neg_injective
    · intro p hp q hq hpq
      have b := zneg q hq
      rcases List.mem_append.mp hp with hp | hp
      · have a := z0 p hp
        rw [hpq] at a; linarith
      · have a := (pentagon_mem _ _ p hp).2.1
        rw [hsc2, hpq] at a; linarith
    · intro p hp q hq hpq
      obtain ⟨b0, b1, b2⟩ := pentagon_mem _ _ q hq
      rw [hneg2] at b1
      rcases List.mem_append.mp hp with hp | hp
      · rcases List.mem_append.mp hp with hp | hp
        · have a := z0 p hp
          rw [hpq] at a; linarith
        · obtain ⟨a0, a1, a2⟩ := pentagon_mem _ _ p hp
          rw [hneg] at b0
          rw [hpq] at a0
          generalize 1 / Real.sqrt 2 = t at *
          generalize Real.sqrt 5 = S at *
          rcases a0 with a0 | a0 | a0 <;> rcases b0 with b0 | b0 | b0 <;> rw [a0] at b0 <;> nlinarith
      · have a := zneg p hp
        rw [hpq] at a; linarith
  · intro p hp
    simp only [List.mem_append, List.mem_map] at hp
    unfold dist3sq
    simp only [Pi.zero_apply, sub_zero]
    rcases hp with ((hp | hp) | ⟨q, hq, rfl⟩) | hp
    · simp only [List.mem_cons, List.not_mem_nil, or_false] at hp
      rcases hp with rfl | rfl | rfl <;> simp
    · obtain ⟨_, a1, a2⟩ := pentagon_mem _ _ p hp
      rw [a1, a2, hsc2]; norm_num
    · obtain ⟨_, a1, a2⟩ := pentagon_mem _ _ q hq
      simp only [Pi.neg_apply, neg_sq]
      rw [a1, a2]; norm_num
    · obtain ⟨_, a1, a2⟩ := pentagon_mem _ _ p hp
      rw [a1, a2, hneg2]; norm_num

/-- **C48, partial.** Missing: 13 points (raises) and 15 points (not distinct).
For 5, 7 and 18 points and every rotation the points are pairwise different
points of the unit ball. -/
theorem C48_distinct_partial (n : ℕ) (hn : n = 5 ∨ n = 7 ∨ n = 18) (rot : Option (Fin 3 → ℝ)) :
    ∃ l, sphericalKernelPoints n rot = .ok l ∧ GoodKernelPoints n l := by
  have hb : ∃ l, basePoints n = .ok l ∧ GoodKernelPoints n l := by
    rcases hn with rfl | rfl | rfl
    · exact base5
    · exact base7
    · exact base18
  obtain ⟨l, hl, hg⟩ := hb
  cases rot with
  | none => exact ⟨l, by unfold sphericalKernelPoints; rw [hl], hg⟩
  | some ang => exact ⟨_, by unfold sphericalKernelPoints; rw [hl], hg.rotate ang⟩

/-- **C48, unsupported sizes** raise `ValueError`. -/
theorem C48_unsupported (n : ℕ) (hn : n ≠ 5 ∧ n ≠ 7 ∧ n ≠ 13 ∧ n ≠ 15 ∧ n ≠ 18) (rot : Option (Fin 3 → ℝ)) :
    sphericalKernelPoints n rot = .error .valueError := by
  obtain ⟨h5, h7, h13, h15, h18⟩ := hn
  unfold sphericalKernelPoints basePoints
  rw [if_neg h5, if_neg h7, if_neg h13, if_neg h15, if_neg h18]

theorem hexagon_mem (scale shift : ℝ) (p : Fin 3 → ℝ) (hp : p ∈ hexagon scale shift) :
    p 0 ^ 2 + p 1 ^ 2 = scale ^ 2 ∧ p 2 = shift := by
  have h3 : Real.sqrt 3 ^ 2 = 3 := Real.sq_sqrt (by norm_num)
  unfold hexagon at hp
  simp only [List.map_cons, List.map_nil, List.mem_cons, List.not_mem_nil, or_false, Matrix.cons_val] at hp
  rcases hp with rfl | rfl | rfl | rfl | rfl | rfl <;> simp only [Matrix.cons_val]
  · exact ⟨by ring, by ring⟩
  · exact ⟨by ring, by ring⟩
  all_goals exact ⟨by linear_combination scale ^ 2 / 4 * h3, by ring⟩

theorem hexagon_not_nodup (scale shift : ℝ) : ¬ (hexagon scale shift).Nodup := by
  unfold hexagon
  dsimp only
  intro h
  rw [List.map_cons, List.map_cons, List.map_cons, List.map_cons, List.map_cons, List.map_cons, List.map_nil] at h
  have h4 := (((List.nodup_cons.mp (List.nodup_cons.mp (List.nodup_cons.mp h).2).2).2))
  exact (List.nodup_cons.mp h4).1 (by simp)

/-- **C48, 15 points, the part that holds**: for every rotation there are 15
points, each of them the centre or on the unit sphere — but never 15 different
ones. -/
theorem C48_fifteen (rot : Option (Fin 3 → ℝ)) :
    ∃ l, sphericalKernelPoints 15 rot = .ok l ∧ l.length = 15 ∧ (∀ p ∈ l, dist3sq p 0 = 0 ∨ dist3sq p 0 = 1) ∧
      ¬ l.Nodup := by
  have hb : ∃ l, basePoints 15 = .ok l ∧ l.length = 15 ∧ (∀ p ∈ l, dist3sq p 0 = 0 ∨ dist3sq p 0 = 1) ∧
      ¬ l.Nodup := by
    have h3 : Real.sqrt 3 ^ 2 = 3 := Real.sq_sqrt (by norm_num)
    refine ⟨_, rfl, by simp [hexagon], ?_, ?_⟩
    · intro p hp
      simp only [List.mem_append, List.mem_map] at hp
      unfold dist3sq
      simp only [Pi.zero_apply, sub_zero]
      rcases hp with (hp | hp) | ⟨q, hq, rfl⟩
      · simp only [List.mem_cons, List.not_mem_nil, or_false] at hp
        rcases hp with rfl | rfl | rfl <;> simp
      · obtain ⟨a1, a2⟩ := hexagon_mem _ _ p hp
        right
        rw [a1, a2, div_pow, h3]; norm_num
      · obtain ⟨a1, a2⟩ := hexagon_mem _ _ q hq
        right
        simp only [Matrix.cons_val]
        rw [add_comm (q 1 ^ 2), a1, a2, div_pow, h3]; norm_num
    · intro h
      rw [List.nodup_append, List.nodup_append] at h
      exact hexagon_not_nodup _ _ h.1.2.1
  obtain ⟨l, hl, h1, h2, h3⟩ := hb
  cases rot with
  | none => exact ⟨l, by unfold sphericalKernelPoints; rw [hl], h1, h2, h3⟩
  | some ang =>
    refine ⟨_, by unfold sphericalKernelPoints; rw [hl], by simpa using h1, ?_, ?_⟩
    · intro p hp
      obtain ⟨q, hq, rfl⟩ := List.mem_map.mp hp
      have := (C47_isometry ang q 0).1
      rw [(C47_isometry ang q 0).2] at this
      rw [this]
      exact h2 q hq
    · rw [List.nodup_map_iff (rotPt_injective ang)]
      exact h3

/-- **C48, refuted** for the default size of the layers, 15: there are duplicates
for every rotation. -/
theorem C48_distinct_false :
    ¬ (∀ (n : ℕ), n ∈ [5, 7, 13, 15, 18] → ∀ rot, ∃ l, sphericalKernelPoints n rot = .ok l ∧ GoodKernelPoints n l) := by
  intro H
  obtain ⟨l, hl, hg⟩ := H 15 (by simp) none
  obtain ⟨l', hl', _, _, h4⟩ := C48_fifteen none
  rw [hl] at hl'
  cases hl'
  exact h4 hg.2.1

theorem icosahedron_vertices : icosahedron.length = 13 ∧ icosahedron.Nodup ∧
    ∀ p ∈ icosahedron.tail, dist3sq p 0 = 1 + ((1 + Real.sqrt 5) / 2) ^ 2 := by
  have h := Real.sqrt_nonneg 5
  unfold icosahedron
  generalize hp : (1 + Real.sqrt 5) / 2 = phi
  have h0 : 0 < phi := by rw [← hp]; linarith
  have h1 : phi ≠ 1 := by
    intro h1
    have : Real.sqrt 5 = 1 := by linarith
    rw [Real.sqrt_eq_one] at this
    norm_num at this
  have n1 : phi ≠ -phi := by intro h; linarith
  have n2 : -phi ≠ phi := by intro h; linarith
  have n3 : phi ≠ -1 := by intro h; linarith
  have n4 : ¬ ((1 : ℝ) = -1) := by norm_num
  have n6 : -phi ≠ 1 := by intro h; linarith
  have n7 : -phi ≠ 0 := by intro h; linarith
  have n8 : (-1 : ℝ) ≠ phi := by intro h; linarith
  have n9 : (1 : ℝ) ≠ -phi := by intro h; linarith
  have n10 : (-1 : ℝ) ≠ -phi := by intro h; apply h1; linarith
  have hne : ∀ a b c a' b' c' : ℝ, (![a, b, c] = ![a', b', c'] ↔ a = a' ∧ b = b' ∧ c = c') := by
    intro a b c a' b' c'
    constructor
    · intro h
      have e0 := congrFun h 0
      have e1 := congrFun h 1
      have e2 := congrFun h 2
      simp only [Matrix.cons_val] at e0 e1 e2
      exact ⟨e0, e1, e2⟩
    · rintro ⟨rfl, rfl, rfl⟩
      rfl
  refine ⟨rfl, ?_, ?_⟩
  · simp only [List.nodup_cons, List.mem_cons, List.not_mem_nil, or_false, hne, List.nodup_nil, not_false_iff, and_true]
    simp [h0.ne', h0.ne, h1, h1.symm, n1, n2, n3, n4, n6, n7, n8, n9, n10]
  · intro p hp
    simp only [List.tail_cons, List.mem_cons, List.not_mem_nil, or_false] at hp
    rcases hp with rfl | rfl | rfl | rfl | rfl | rfl | rfl | rfl | rfl | rfl | rfl | rfl <;>
      simp only [dist3sq, Pi.zero_apply, sub_zero, Matrix.cons_val] <;> ring

/-- **C48, 13 points** always raise. The points of that branch would be the centre and
twelve different points on a sphere of radius larger than one. -/
theorem C48_thirteen (rot : Option (Fin 3 → ℝ)) :
    sphericalKernelPoints 13 rot = .error .invalidArgument ∧ icosahedron.length = 13 ∧ icosahedron.Nodup ∧
      ∀ p ∈ icosahedron.tail, dist3sq p 0 = 1 + ((1 + Real.sqrt 5) / 2) ^ 2 ∧ 1 < dist3sq p 0 := by
  obtain ⟨h1, h2, h3⟩ := icosahedron_vertices
  refine ⟨?_, h1, h2, fun p hp => ⟨h3 p hp, ?_⟩⟩
  · unfold sphericalKernelPoints basePoints
    simp
  · have := Real.sqrt_nonneg 5
    rw [h3 p hp]
    nlinarith

/-! ## C78 -/

section
variable {K : Type*} [Field K] [LinearOrder K] [IsStrictOrderedRing K]

theorem linspace01_injOn (m i j : ℕ) (hi : i < m) (hj : j < m) (h : (linspace01 m i : K) = linspace01 m j) : i = j := by
  unfold linspace01 at h
  split at h
  · omega
  · have h1 : (1 : K) < m := by
      have : 1 < m := by omega
      exact_mod_cast this
    rw [div_left_inj' (by linarith)] at h
    exact_mod_cast h

theorem linspace01_range (m i : ℕ) (hi : i < m) : 0 ≤ (linspace01 m i : K) ∧ (linspace01 m i : K) ≤ 1 := by
  unfold linspace01
  split
  · simp
  · have h1 : (1 : K) < m := by
      have : 1 < m := by omega
      exact_mod_cast this
    have h2 : (i : K) + 1 ≤ m := by exact_mod_cast hi
    constructor
    · apply div_nonneg (Nat.cast_nonneg i); linarith
    · rw [div_le_one (by linarith)]; linarith

/-- **C78, cube kernel points** are the `m ^ 3` points of the regular lattice,
each exactly once. -/
theorem C78_lattice (m : ℕ) :
    (cubeKernelPoints m : List (Fin 3 → K)).length = m ^ 3 ∧ (cubeKernelPoints m : List (Fin 3 → K)).Nodup ∧
      ∀ p : Fin 3 → K, p ∈ cubeKernelPoints m ↔ ∃ a < m, ∃ b < m, ∃ c < m,
        p = ![linspace01 m a, linspace01 m b, linspace01 m c] := by
  have hdec : ∀ r, r < m * m * m → r / m % m < m ∧ r / (m * m) < m ∧ r % m < m := by
    intro r hr
    have hm : 0 < m := by
      rcases Nat.eq_zero_or_pos m with rfl | h
      · simp at hr
      · exact h
    exact ⟨Nat.mod_lt _ hm, Nat.div_lt_of_lt_mul (by rw [mul_assoc] at hr ⊢; exact hr), Nat.mod_lt _ hm⟩
  have hrec : ∀ r, r = (r / (m * m) * m + r / m % m) * m + r % m := by
    intro r
    have h1 : r / (m * m) = r / m / m := (Nat.div_div_eq_div_mul r m m).symm
    rw [h1]
    have h2 := Nat.div_add_mod (r / m) m
    have h3 := Nat.div_add_mod r m
    rw [mul_comm (r / m / m) m, h2, mul_comm, h3]
  refine ⟨by simp [cubeKernelPoints]; ring, ?_, ?_⟩
  · unfold cubeKernelPoints
    apply List.Nodup.map_on _ List.nodup_range
    intro r hr s hs h
    obtain ⟨a1, a2, a3⟩ := hdec r (List.mem_range.mp hr)
    obtain ⟨b1, b2, b3⟩ := hdec s (List.mem_range.mp hs)
    have e1 := linspace01_injOn m _ _ a1 b1 (congrFun h 0)
    have e2 := linspace01_injOn m _ _ a2 b2 (congrFun h 1)
    have e3 := linspace01_injOn m _ _ a3 b3 (congrFun h 2)
    rw [hrec r, hrec s, e1, e2, e3]
  · intro p
    unfold cubeKernelPoints
    rw [List.mem_map]
    constructor
    · rintro ⟨r, hr, rfl⟩
      obtain ⟨a1, a2, a3⟩ := hdec r (List.mem_range.mp hr)
      exact ⟨_, a1, _, a2, _, a3, rfl⟩
    · rintro ⟨a, ha, b, hb, c, hc, rfl⟩
      have hm : 0 < m := by omega
      have hc' : (b * m + a) * m + c < m * m * m := by nlinarith
      refine ⟨(b * m + a) * m + c, List.mem_range.mpr hc', ?_⟩
      have e1 : ((b * m + a) * m + c) / m = b * m + a := by
        rw [add_comm, Nat.add_mul_div_right _ _ hm, Nat.div_eq_of_lt hc, zero_add]
      have e2 : ((b * m + a) * m + c) / (m * m) = b := by
        rw [← Nat.div_div_eq_div_mul, e1, add_comm, Nat.add_mul_div_right _ _ hm, Nat.div_eq_of_lt ha, zero_add]
      have e3 : ((b * m + a) * m + c) % m = c := by
        rw [add_comm, Nat.add_mul_mod_self_right, Nat.mod_eq_of_lt hc]
      have e4 : (b * m + a) % m = a := by
        rw [add_comm, Nat.add_mul_mod_self_right, Nat.mod_eq_of_lt ha]
      rw [e1, e2, e3, e4]

/-- **C78, inside the cube**: all coordinates lie between 0 and 1, both corners
occur for `m ≥ 2`. -/
theorem C78_unit_cube (m : ℕ) :
    (∀ p ∈ (cubeKernelPoints m : List (Fin 3 → K)), ∀ d, 0 ≤ p d ∧ p d ≤ 1) ∧
      (2 ≤ m → (fun _ => 0) ∈ (cubeKernelPoints m : List (Fin 3 → K)) ∧
        (fun _ => 1) ∈ (cubeKernelPoints m : List (Fin 3 → K))) := by
  obtain ⟨_, _, h3⟩ := C78_lattice (K := K) m
  constructor
  · intro p hp d
    obtain ⟨a, ha, b, hb, c, hc, rfl⟩ := (h3 p).mp hp
    fin_cases d
    · exact linspace01_range m a ha
    · exact linspace01_range m b hb
    · exact linspace01_range m c hc
  · intro hm
    have h0 : (linspace01 m 0 : K) = 0 := by unfold linspace01; split <;> simp
    have h1 : (linspace01 m (m - 1) : K) = 1 := by
      unfold linspace01
      rw [if_neg (by omega)]
      have h1 : (1 : K) < m := by
        have : 1 < m := by omega
        exact_mod_cast this
      rw [Nat.cast_sub (by omega), Nat.cast_one, div_self (by linarith)]
    constructor
    · rw [h3]
      refine ⟨0, by omega, 0, by omega, 0, by omega, ?_⟩
      ext d; fin_cases d <;> simp [h0]
    · rw [h3]
      refine ⟨m - 1, by omega, m - 1, by omega, m - 1, by omega, ?_⟩
      ext d; fin_cases d <;> simp [h1]

end
end PC
