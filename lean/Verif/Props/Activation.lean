import Verif.Activation
import Mathlib.Analysis.SpecialFunctions.ExpDeriv
import Mathlib.Analysis.Calculus.Deriv.Mul
import Mathlib.Analysis.Complex.ExponentialBounds

/-!
# Properties of the activation functions (C147)
-/

namespace PC

open Set Filter

/-- The functions as used on the two sides of a point. -/
theorem Act.forward_left (A : Act) : ∃ f : ℝ → ℝ, (∀ x ≤ 0, A.forward x = f x) ∧
    ∀ x ≤ 0, HasDerivAt f (A.backward (A.forward x)) x := by
  cases A with
  | relu =>
    refine ⟨fun _ => 0, fun x hx => max_eq_right hx, fun x hx => ?_⟩
    have : Act.relu.backward (Act.relu.forward x) = 0 := by
      simp [Act.backward, Act.forward, hx]
    rw [this]; exact hasDerivAt_const x 0
  | leaky =>
    refine ⟨fun x => x * (2 / 10), fun x hx => ?_, fun x hx => ?_⟩
    · simp only [Act.forward]
      split
      · next h => have : x = 0 := le_antisymm hx h; subst this; simp
      · rfl
    · have : Act.leaky.backward (Act.leaky.forward x) = 1 * (2 / 10) := by
        have h1 : Act.leaky.forward x ≤ 0 := by
          simp only [Act.forward]; split <;> linarith
        simp [Act.backward, not_lt.mpr h1]
      rw [this]; exact (hasDerivAt_id x).mul_const _
  | elu =>
    refine ⟨fun x => 1 * (Real.exp x - 1), fun x hx => if_pos hx, fun x hx => ?_⟩
    have h1 : Act.elu.forward x = 1 * (Real.exp x - 1) := if_pos hx
    have h2 : 1 * (Real.exp x - 1) ≤ 0 := by
      have := Real.exp_le_one_iff.mpr hx; linarith
    have : Act.elu.backward (Act.elu.forward x) = 1 * Real.exp x := by
      rw [h1]
      simp only [Act.backward, if_pos h2]; ring
    rw [this]
    exact ((Real.hasDerivAt_exp x).sub_const 1).const_mul 1
  | exp =>
    exact ⟨Real.exp, fun _ _ => rfl, fun x _ => Real.hasDerivAt_exp x⟩

theorem Act.forward_right (A : Act) : ∃ f : ℝ → ℝ, (∀ x > 0, A.forward x = f x) ∧
    ∀ x > 0, HasDerivAt f (A.backward (A.forward x)) x := by
  cases A with
  | relu =>
    refine ⟨id, fun x hx => max_eq_left hx.le, fun x hx => ?_⟩
    have : Act.relu.backward (Act.relu.forward x) = 1 := by
      simp only [Act.backward, Act.forward, max_eq_left hx.le]; exact if_pos hx
    rw [this]; exact hasDerivAt_id x
  | leaky =>
    refine ⟨id, fun x hx => if_pos hx.le, fun x hx => ?_⟩
    have h1 : Act.leaky.forward x = x := if_pos hx.le
    have : Act.leaky.backward (Act.leaky.forward x) = 1 := by rw [h1]; exact if_pos hx
    rw [this]; exact hasDerivAt_id x
  | elu =>
    refine ⟨id, fun x hx => if_neg (not_le.mpr hx), fun x hx => ?_⟩
    have h1 : Act.elu.forward x = x := if_neg (not_le.mpr hx)
    have : Act.elu.backward (Act.elu.forward x) = 1 := by rw [h1]; exact if_neg (not_le.mpr hx)
    rw [this]; exact hasDerivAt_id x
  | exp =>
    exact ⟨Real.exp, fun _ _ => rfl, fun x _ => Real.hasDerivAt_exp x⟩

/-- **C147.** For every activation function and every argument but zero, `backward` applied to the *result* of `forward`
is the derivative of `forward`; at zero it is the derivative from the left. -/
theorem C147_derivative (A : Act) (x : ℝ) :
    (x ≠ 0 → HasDerivAt A.forward (A.backward (A.forward x)) x) ∧
    HasDerivWithinAt A.forward (A.backward (A.forward x)) (Iic x) x := by
  obtain ⟨f, hf, hd⟩ := A.forward_left
  obtain ⟨g, hg, hd'⟩ := A.forward_right
  have hne : x ≠ 0 → HasDerivAt A.forward (A.backward (A.forward x)) x := by
    intro hx
    rcases lt_or_gt_of_ne hx with h | h
    · refine (hd x h.le).congr_of_eventuallyEq ?_
      filter_upwards [Iio_mem_nhds h] with y hy using hf y (le_of_lt hy)
    · refine (hd' x h).congr_of_eventuallyEq ?_
      filter_upwards [Ioi_mem_nhds h] with y hy using hg y hy
  refine ⟨hne, ?_⟩
  by_cases hx : x = 0
  · subst hx
    exact (hd 0 le_rfl).hasDerivWithinAt.congr (fun y hy => hf y hy) (hf 0 le_rfl)
  · exact (hne hx).hasDerivWithinAt

/-- **C147, smooth functions.** The exponential linear unit and the exponential have this derivative everywhere. -/
theorem C147_smooth (A : Act) (hA : A = .elu ∨ A = .exp) (x : ℝ) :
    HasDerivAt A.forward (A.backward (A.forward x)) x := by
  by_cases hx : x = 0
  · subst hx
    rcases hA with rfl | rfl
    · rw [hasDerivAt_iff_tendsto_slope_left_right]
      have hb : Act.elu.backward (Act.elu.forward 0) = 1 := by simp [Act.backward, Act.forward]
      have hleft := ((C147_derivative .elu 0).2.mono (Iio_subset_Iic_self))
      rw [hasDerivWithinAt_iff_tendsto_slope' (by simp)] at hleft
      refine ⟨hleft, ?_⟩
      rw [hb]
      have hr : HasDerivWithinAt Act.elu.forward 1 (Ioi 0) 0 := by
        refine (hasDerivAt_id (0 : ℝ)).hasDerivWithinAt.congr (fun y hy => if_neg (not_le.mpr hy)) ?_
        simp [Act.forward]
      rw [hasDerivWithinAt_iff_tendsto_slope' (by simp)] at hr
      exact hr
    · exact Real.hasDerivAt_exp 0
  · exact (C147_derivative A x).1 hx

/-- **C147 fails for the argument in place of the result**: at `-2` the exponential linear unit has a positive derivative,
`backward(-2)` is `-1`. -/
theorem C147_argument_false : ¬ ∀ (A : Act) (x : ℝ), x ≠ 0 → HasDerivAt A.forward (A.backward x) x := by
  intro h
  have h1 := h .elu (-2) (by norm_num)
  have h2 := (C147_derivative .elu (-2)).1 (by norm_num)
  have h3 := h1.unique h2
  have h4 : Act.elu.backward (-2) = -1 := by simp only [Act.backward]; norm_num
  have h5 : Act.elu.forward (-2) = Real.exp (-2) - 1 := by
    simp only [Act.forward]; rw [if_pos (by norm_num)]; ring
  have h6 : Real.exp (-2) - 1 ≤ 0 := by
    have := Real.exp_le_one_iff.mpr (by norm_num : (-2 : ℝ) ≤ 0); linarith
  rw [h4, h5] at h3
  simp only [Act.backward, if_pos h6] at h3
  have := Real.exp_pos (-2)
  linarith

/-- For the two rectified units the argument would do as well: result and argument have the same sign. -/
theorem C147_rectified (A : Act) (hA : A = .relu ∨ A = .leaky) (x : ℝ) : A.backward (A.forward x) = A.backward x := by
  have hpos : 0 < A.forward x ↔ 0 < x := by
    rcases hA with rfl | rfl
    · simp [Act.forward]
    · simp only [Act.forward]
      split
      · rfl
      · constructor <;> intro h <;> linarith
  rcases hA with rfl | rfl <;> simp only [Act.backward] <;> simp only [hpos]

end PC
