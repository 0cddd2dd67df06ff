import Verif.HeadGrad
import Mathlib.Analysis.SpecialFunctions.Log.Deriv
import Mathlib.Analysis.SpecialFunctions.ExpDeriv
import Mathlib.Analysis.SpecialFunctions.Sqrt
import Mathlib.Analysis.Calculus.Deriv.Inv
import Mathlib.Analysis.Calculus.Deriv.Pow
import Mathlib.Algebra.BigOperators.Field
import Mathlib.Tactic.FinCases

/-!
# Properties of the gradients of the loss and of the heads (C159)
-/

set_option linter.unusedVariables false
set_option linter.unusedSectionVars false

namespace PC

open Filter Topology

/-! ### Moving matrices -/

/-- The first `c` channels of the matrix `f θ` have the velocities `f'` at `θ₀`. -/
def MatMoves (θ₀ : ℝ) (c : ℕ) {n : ℕ} (f : ℝ → Fin n → ℕ → ℝ) (f' : Fin n → ℕ → ℝ) : Prop :=
  ∀ i, ∀ ch < c, HasDerivAt (fun θ => f θ i ch) (f' i ch) θ₀

/-- Gradients times velocities, summed over the first `c` channels of all rows. -/
def matPairing (c : ℕ) {n : ℕ} (G f' : Fin n → ℕ → ℝ) : ℝ := ∑ i, ∑ ch ∈ Finset.range c, G i ch * f' i ch

/-! ### The loss -/

/-- No probability is exactly at one of the two bounds of the clipping. -/
def OffClip (C : ℕ) (e : ℝ) (x : ℕ → ℝ) : Prop := ∀ j < C, softmaxRow C x j ≠ e ∧ softmaxRow C x j ≠ 1 - e

theorem softmax_pos {C : ℕ} (hC : 0 < C) (x : ℕ → ℝ) (i : ℕ) : 0 < softmaxRow C x i := by
  unfold softmaxRow
  exact div_pos (Real.exp_pos _) (Finset.sum_pos (fun j _ => Real.exp_pos _) ⟨0, Finset.mem_range.mpr hC⟩)

theorem softmax_sum {C : ℕ} (hC : 0 < C) (x : ℕ → ℝ) : ∑ i ∈ Finset.range C, softmaxRow C x i = 1 := by
  unfold softmaxRow
  rw [← Finset.sum_div]
  exact div_self (Finset.sum_pos (fun j _ => Real.exp_pos _) ⟨0, Finset.mem_range.mpr hC⟩).ne'

theorem softmax_deriv {C : ℕ} (hC : 0 < C) (θ₀ : ℝ) (x : ℝ → ℕ → ℝ) (x' : ℕ → ℝ)
    (hx : ∀ j < C, HasDerivAt (fun θ => x θ j) (x' j) θ₀) (i : ℕ) (hi : i < C) :
    HasDerivAt (fun θ => softmaxRow C (x θ) i)
      (softmaxRow C (x θ₀) i * (x' i - ∑ j ∈ Finset.range C, softmaxRow C (x θ₀) j * x' j)) θ₀ := by
  have hS : HasDerivAt (fun θ => ∑ j ∈ Finset.range C, Real.exp (x θ j))
      (∑ j ∈ Finset.range C, Real.exp (x θ₀ j) * x' j) θ₀ :=
    HasDerivAt.fun_sum fun j hj => (hx j (Finset.mem_range.mp hj)).exp
  have hpos : 0 < ∑ j ∈ Finset.range C, Real.exp (x θ₀ j) :=
    Finset.sum_pos (fun j _ => Real.exp_pos _) ⟨0, Finset.mem_range.mpr hC⟩
  have h := (hx i hi).exp.div hS hpos.ne'
  refine h.congr_deriv ?_
  unfold softmaxRow
  have e : ∑ j ∈ Finset.range C, Real.exp (x θ₀ j) / (∑ j ∈ Finset.range C, Real.exp (x θ₀ j)) * x' j =
      (∑ j ∈ Finset.range C, Real.exp (x θ₀ j) * x' j) / ∑ j ∈ Finset.range C, Real.exp (x θ₀ j) := by
    rw [Finset.sum_div]
    exact Finset.sum_congr rfl fun j _ => by ring
  rw [e]
  generalize (∑ j ∈ Finset.range C, Real.exp (x θ₀ j) * x' j) = T
  set S := ∑ j ∈ Finset.range C, Real.exp (x θ₀ j) with hS'
  clear_value S
  field_simp

theorem clip_pos {e : ℝ} (he : 0 < e) (x : ℝ) : 0 < clipProb e x := lt_of_lt_of_le he (le_max_right _ _)

theorem clip_deriv {e : ℝ} (he' : e < 1 / 2) (θ₀ : ℝ) (p : ℝ → ℝ) (p' : ℝ) (hp : HasDerivAt p p' θ₀)
    (h1 : p θ₀ ≠ e) (h2 : p θ₀ ≠ 1 - e) :
    HasDerivAt (fun θ => clipProb e (p θ)) (if p θ₀ ≤ 1 - e ∧ e ≤ min (p θ₀) (1 - e) then p' else 0) θ₀ := by
  have hc := hp.continuousAt
  rcases lt_or_gt_of_ne h1 with h | h
  · have : ∀ᶠ θ in 𝓝 θ₀, clipProb e (p θ) = e := by
      filter_upwards [hc.eventually_lt continuousAt_const h] with θ hθ
      unfold clipProb
      exact max_eq_right ((min_le_left _ _).trans hθ.le)
    rw [if_neg (fun hh => absurd (hh.2.trans (min_le_left _ _)) (not_le.mpr h))]
    exact (hasDerivAt_const θ₀ e).congr_of_eventuallyEq this
  · rcases lt_or_gt_of_ne h2 with h' | h'
    · have : ∀ᶠ θ in 𝓝 θ₀, clipProb e (p θ) = p θ := by
        filter_upwards [hc.eventually_lt continuousAt_const h', continuousAt_const.eventually_lt hc h] with θ hθ hθ'
        unfold clipProb
        rw [min_eq_left hθ.le, max_eq_left hθ'.le]
      rw [if_pos ⟨h'.le, le_min h.le (by linarith)⟩]
      exact hp.congr_of_eventuallyEq this
    · have : ∀ᶠ θ in 𝓝 θ₀, clipProb e (p θ) = 1 - e := by
        filter_upwards [continuousAt_const.eventually_lt hc h'] with θ hθ
        unfold clipProb
        rw [min_eq_right hθ.le, max_eq_left (by linarith)]
      rw [if_neg (fun hh => absurd hh.1 (not_le.mpr h'))]
      exact (hasDerivAt_const θ₀ (1 - e)).congr_of_eventuallyEq this

/-- One row of the loss. -/
theorem ce_deriv {C : ℕ} {e : ℝ} (he : 0 < e) (he' : e < 1 / 2) (θ₀ : ℝ) (x : ℝ → ℕ → ℝ) (x' : ℕ → ℝ)
    (hx : ∀ j < C, HasDerivAt (fun θ => x θ j) (x' j) θ₀) (y : ℕ) (hy : y < C) (hoff : OffClip C e (x θ₀)) (g : ℝ) :
    HasDerivAt (fun θ => g * sparseCE C e (softmaxRow C (x θ)) y)
      (∑ i ∈ Finset.range C, ceGrad C e (x θ₀) y g i * x' i) θ₀ := by
  have hC : 0 < C := by omega
  set p := softmaxRow C (x θ₀) with hp
  set c := fun j => clipProb e (p j) with hc
  have hc0 : ∀ j, 0 < c j := fun j => clip_pos he _
  set p' := fun j => p j * (x' j - ∑ i ∈ Finset.range C, p i * x' i) with hp'
  set c' := fun j => if p j ≤ 1 - e ∧ e ≤ min (p j) (1 - e) then p' j else 0 with hc'
  have hcd : ∀ j < C, HasDerivAt (fun θ => clipProb e (softmaxRow C (x θ) j)) (c' j) θ₀ := fun j hj =>
    clip_deriv he' θ₀ (fun θ => softmaxRow C (x θ) j) (p' j) (softmax_deriv hC θ₀ x x' hx j hj) (hoff j hj).1 (hoff j hj).2
  have hl : ∀ j < C, HasDerivAt (fun θ => Real.log (clipProb e (softmaxRow C (x θ) j))) (c' j / c j) θ₀ := fun j hj =>
    (hcd j hj).log (hc0 j).ne'
  have hS : HasDerivAt (fun θ => ∑ j ∈ Finset.range C, Real.exp (Real.log (clipProb e (softmaxRow C (x θ) j))))
      (∑ j ∈ Finset.range C, Real.exp (Real.log (c j)) * (c' j / c j)) θ₀ :=
    HasDerivAt.fun_sum fun j hj => (hl j (Finset.mem_range.mp hj)).exp
  have hpos : 0 < ∑ j ∈ Finset.range C, Real.exp (Real.log (c j)) :=
    Finset.sum_pos (fun j _ => Real.exp_pos _) ⟨0, Finset.mem_range.mpr hC⟩
  have h := ((hS.log hpos.ne').sub (hl y hy)).const_mul g
  refine h.congr_deriv ?_
  set sm := softmaxRow C (fun j => Real.log (c j)) with hsm
  have e1 : (∑ j ∈ Finset.range C, Real.exp (Real.log (c j)) * (c' j / c j)) / ∑ j ∈ Finset.range C, Real.exp (Real.log (c j)) =
      ∑ j ∈ Finset.range C, sm j * (c' j / c j) := by
    rw [Finset.sum_div]
    refine Finset.sum_congr rfl fun j _ => ?_
    rw [hsm]
    unfold softmaxRow
    ring
  rw [e1]
  have e2 : c' y / c y = ∑ j ∈ Finset.range C, (if j = y then 1 else 0) * (c' j / c j) := by
    rw [Finset.sum_eq_single y]
    · rw [if_pos rfl, one_mul]
    · intro j _ hne; rw [if_neg hne, zero_mul]
    · intro hn; exact absurd (Finset.mem_range.mpr hy) hn
  rw [e2, ← Finset.sum_sub_distrib, Finset.mul_sum]
  set gp := fun j => if p j ≤ 1 - e ∧ e ≤ min (p j) (1 - e) then
    g * (sm j - if j = y then 1 else 0) * (1 / c j) else 0 with hgp
  have e3 : ∀ i, ceGrad C e (x θ₀) y g i = (gp i - ∑ j ∈ Finset.range C, gp j * p j) * p i := fun i => rfl
  have e4 : ∀ j, g * (sm j * (c' j / c j) - (if j = y then 1 else 0) * (c' j / c j)) = gp j * p' j := by
    intro j
    simp only [hgp, hc']
    split
    · ring
    · simp
  simp only [e3, e4, hp']
  clear_value gp p
  have e5 : ∑ i ∈ Finset.range C, gp i * (p i * (x' i - ∑ j ∈ Finset.range C, p j * x' j)) =
      ∑ i ∈ Finset.range C, gp i * p i * x' i - (∑ i ∈ Finset.range C, gp i * p i) * ∑ j ∈ Finset.range C, p j * x' j := by
    rw [Finset.sum_mul, ← Finset.sum_sub_distrib]
    exact Finset.sum_congr rfl fun j _ => by ring
  rw [e5, Finset.mul_sum, ← Finset.sum_sub_distrib]
  exact Finset.sum_congr rfl fun j _ => by ring

theorem trainLoss_eq (C : ℕ) (e : ℝ) {B : ℕ} (labels : Fin B → ℕ) (logits : Fin B → ℕ → ℝ) :
    trainLoss C e labels logits = ∑ b, 1 / (B : ℝ) * sparseCE C e (softmaxRow C (logits b)) (labels b) := by
  unfold trainLoss batchLoss
  rw [List.map_ofFn, List.length_ofFn, ← Finset.mul_sum, one_div, div_eq_inv_mul]
  congr 1
  rw [show List.zipWith (fun l x => sparseCE C e x l) (List.ofFn labels) (List.ofFn (softmaxRow C ∘ logits)) =
      List.ofFn (fun b => sparseCE C e (softmaxRow C (logits b)) (labels b)) from ?_, List.sum_ofFn]
  apply List.ext_getElem
  · simp
  · intro i h1 h2; simp

/-- **C159, the loss**: along every motion of the logits, where no probability is at a bound of the clipping, the loss
of the batch has the derivative that the returned gradients predict. -/
theorem C159_loss_partial (C : ℕ) (e : ℝ) (he : 0 < e) (he' : e < 1 / 2) {B : ℕ} (labels : Fin B → ℕ)
    (hlab : ∀ b, labels b < C) (θ₀ : ℝ) (x : ℝ → Fin B → ℕ → ℝ) (x' : Fin B → ℕ → ℝ) (hx : MatMoves θ₀ C x x')
    (hoff : ∀ b, OffClip C e (x θ₀ b)) :
    HasDerivAt (fun θ => trainLoss C e labels (x θ)) (matPairing C (trainLossGrad C e labels (x θ₀)) x') θ₀ := by
  simp only [trainLoss_eq]
  exact HasDerivAt.fun_sum fun b _ => ce_deriv he he' θ₀ (fun θ => x θ b) (x' b) (fun j hj => hx b j hj) _ (hlab b) (hoff b) _

/-- If no probability is clipped, the loss is the cross entropy and its gradient is the usual one. -/
theorem C159_unclipped (C : ℕ) (e : ℝ) (he : 0 < e) (x : ℕ → ℝ) (y : ℕ) (hy : y < C)
    (hin : ∀ j < C, e ≤ softmaxRow C x j ∧ softmaxRow C x j ≤ 1 - e) (g : ℝ) :
    sparseCE C e (softmaxRow C x) y = -Real.log (softmaxRow C x y) ∧
      ∀ i < C, ceGrad C e x y g i = g * (softmaxRow C x i - if i = y then 1 else 0) := by
  have hC : 0 < C := by omega
  have hc : ∀ j < C, clipProb e (softmaxRow C x j) = softmaxRow C x j := fun j hj => by
    unfold clipProb
    rw [min_eq_left (hin j hj).2, max_eq_left (hin j hj).1]
  have hex : ∀ j < C, Real.exp (Real.log (clipProb e (softmaxRow C x j))) = softmaxRow C x j := fun j hj => by
    rw [hc j hj, Real.exp_log (softmax_pos hC x j)]
  have hsum : ∑ j ∈ Finset.range C, Real.exp (Real.log (clipProb e (softmaxRow C x j))) = 1 := by
    rw [Finset.sum_congr rfl fun j hj => hex j (Finset.mem_range.mp hj), softmax_sum hC]
  refine ⟨by unfold sparseCE; rw [hsum, hc y hy, Real.log_one, zero_sub], fun i hi => ?_⟩
  have hsm : ∀ j < C, softmaxRow C (fun j => Real.log (clipProb e (softmaxRow C x j))) j = softmaxRow C x j := fun j hj => by
    change Real.exp (Real.log (clipProb e (softmaxRow C x j))) /
      ∑ j ∈ Finset.range C, Real.exp (Real.log (clipProb e (softmaxRow C x j))) = _
    rw [hsum, hex j hj, div_one]
  have hgp : ∀ j < C, (if softmaxRow C x j ≤ 1 - e ∧ e ≤ min (softmaxRow C x j) (1 - e) then
      g * (softmaxRow C (fun j => Real.log (clipProb e (softmaxRow C x j))) j - if j = y then 1 else 0) *
        (1 / clipProb e (softmaxRow C x j)) else 0) =
      g * (softmaxRow C x j - if j = y then 1 else 0) * (1 / softmaxRow C x j) := fun j hj => by
    rw [if_pos ⟨(hin j hj).2, le_min (hin j hj).1 ((hin j hj).1.trans (hin j hj).2)⟩, hsm j hj, hc j hj]
  unfold ceGrad
  dsimp only
  rw [hgp i hi, Finset.sum_congr rfl fun j hj => by rw [hgp j (Finset.mem_range.mp hj)]]
  have hz : ∑ j ∈ Finset.range C, g * (softmaxRow C x j - if j = y then 1 else 0) * (1 / softmaxRow C x j) * softmaxRow C x j = 0 := by
    have : ∀ j ∈ Finset.range C, g * (softmaxRow C x j - if j = y then 1 else 0) * (1 / softmaxRow C x j) * softmaxRow C x j =
        g * (softmaxRow C x j - if j = y then 1 else 0) := fun j _ => by
      have := (softmax_pos hC x j).ne'
      field_simp
    rw [Finset.sum_congr rfl this, ← Finset.mul_sum, Finset.sum_sub_distrib, softmax_sum hC, Finset.sum_ite_eq' ,
      if_pos (Finset.mem_range.mpr hy), sub_self, mul_zero]
  rw [hz, sub_zero]
  have := (softmax_pos hC x i).ne'
  field_simp

/-- If one class has a probability above the upper bound, no logit of the row gets a gradient, whatever the label. -/
theorem C159_flat (C : ℕ) (e : ℝ) (he' : e < 1 / 2) (x : ℕ → ℝ) (c : ℕ) (hc : c < C)
    (hp : 1 - e < softmaxRow C x c) (y : ℕ) (g : ℝ) : ∀ i < C, ceGrad C e x y g i = 0 := by
  have hC : 0 < C := by omega
  have hz : ∀ j < C, ¬(softmaxRow C x j ≤ 1 - e ∧ e ≤ min (softmaxRow C x j) (1 - e)) := by
    intro j hj ⟨h1, h2⟩
    by_cases hjc : j = c
    · subst hjc; exact absurd h1 (not_le.mpr hp)
    · have : softmaxRow C x j + softmaxRow C x c ≤ 1 := by
        rw [← softmax_sum hC x, ← Finset.sum_pair hjc]
        refine Finset.sum_le_sum_of_subset_of_nonneg ?_ fun a _ _ => (softmax_pos hC x a).le
        intro a ha
        rcases Finset.mem_insert.mp ha with rfl | ha
        · exact Finset.mem_range.mpr hj
        · rw [Finset.mem_singleton.mp ha]; exact Finset.mem_range.mpr hc
      have := h2.trans (min_le_left _ _)
      linarith
  intro i hi
  unfold ceGrad
  dsimp only
  rw [if_neg (hz i hi), Finset.sum_eq_zero fun j hj => by rw [if_neg (hz j (Finset.mem_range.mp hj)), zero_mul]]
  simp

/-- The gradients of a row add up to zero. -/
theorem C159_rowSum (C : ℕ) (hC : 0 < C) (e : ℝ) (x : ℕ → ℝ) (y : ℕ) (g : ℝ) :
    ∑ i ∈ Finset.range C, ceGrad C e x y g i = 0 := by
  unfold ceGrad
  dsimp only
  simp only [sub_mul]
  rw [Finset.sum_sub_distrib, ← Finset.mul_sum, softmax_sum hC, mul_one, sub_self]

/-- **C159 fails in general**: with the clipping at `10⁻⁷` a wrongly classified row may get no gradient at all. -/
theorem C159_false : ¬ ∀ (C : ℕ) (x : ℕ → ℝ) (y : ℕ), y < C → argmaxRow x C ≠ y →
    ∃ i < C, ceGrad C (1 / 10 ^ 7) x y 1 i ≠ 0 := by
  intro h
  have hlog : 0 < Real.log (10 ^ 8 : ℝ) := Real.log_pos (by norm_num)
  obtain ⟨i, hi, hne⟩ := h 2 (fun j => if j = 1 then Real.log (10 ^ 8 : ℝ) else 0) 0 (by omega) (by
    simp only [argmaxRow]
    norm_num
    exact Real.log_pos (by norm_num))
  refine hne (C159_flat 2 _ (by norm_num) _ 1 (by omega) ?_ 0 1 i hi)
  unfold softmaxRow
  rw [Finset.sum_range_succ, Finset.sum_range_one]
  simp only [if_true, if_neg (show (0 : ℕ) ≠ 1 by omega), Real.exp_zero]
  rw [Real.exp_log (by positivity), lt_div_iff₀ (by positivity)]
  norm_num

/-! ### The layers -/

theorem matPairing_add (c : ℕ) {n : ℕ} (G u v : Fin n → ℕ → ℝ) :
    matPairing c G (fun i ch => u i ch + v i ch) = matPairing c G u + matPairing c G v := by
  unfold matPairing
  rw [← Finset.sum_add_distrib]
  refine Finset.sum_congr rfl fun i _ => ?_
  rw [← Finset.sum_add_distrib]
  exact Finset.sum_congr rfl fun ch _ => by ring

/-- Weights and bias of a linear layer with `co` outputs have the velocities of `V`. -/
def LinMoves (θ₀ : ℝ) (ci co : ℕ) (l : ℝ → Lin) (V : Lin) : Prop :=
  (∀ θ, (l θ).cin = ci) ∧ (∀ a < ci, ∀ o < co, HasDerivAt (fun θ => (l θ).w a o) (V.w a o) θ₀) ∧
    ∀ o < co, HasDerivAt (fun θ => (l θ).b o) (V.b o) θ₀

/-- Gradients times velocities of the parameters. -/
def linPairing (ci co : ℕ) {n : ℕ} (g : LinGrads n) (V : Lin) : ℝ :=
  ∑ a ∈ Finset.range ci, ∑ o ∈ Finset.range co, g.w a o * V.w a o + ∑ o ∈ Finset.range co, g.b o * V.b o

/-- **C159, linear layers** (`Dense`, `Conv1x1`): the outputs move with velocities whose pairing with any gradient is
the sum of the returned gradients times the velocities of weights, bias and features. -/
theorem C159_linear (θ₀ : ℝ) (ci co : ℕ) (l : ℝ → Lin) (V : Lin) (hl : LinMoves θ₀ ci co l V) {n : ℕ}
    (f : ℝ → Fin n → ℕ → ℝ) (f' : Fin n → ℕ → ℝ) (hf : MatMoves θ₀ ci f f') :
    ∃ o', MatMoves θ₀ co (fun θ => (l θ).apply (f θ)) o' ∧ ∀ G, matPairing co G o' =
      linPairing ci co ((l θ₀).grad co (f θ₀) G) V + matPairing ci ((l θ₀).grad co (f θ₀) G).x f' := by
  obtain ⟨hc, hw, hb⟩ := hl
  refine ⟨fun i o => ∑ a ∈ Finset.range ci, (f' i a * (l θ₀).w a o + f θ₀ i a * V.w a o) + V.b o, ?_, ?_⟩
  · intro i o ho
    simp only [Lin.apply, conv1x1, hc]
    refine HasDerivAt.add (HasDerivAt.fun_sum fun a ha => ?_) (hb o ho)
    exact (hf i a (Finset.mem_range.mp ha)).mul (hw a (Finset.mem_range.mp ha) o ho)
  · intro G
    simp only [matPairing, linPairing, Lin.grad]
    have e1 : ∑ a ∈ Finset.range ci, ∑ o ∈ Finset.range co, (∑ i, f θ₀ i a * G i o) * V.w a o =
        ∑ i, ∑ o ∈ Finset.range co, ∑ a ∈ Finset.range ci, f θ₀ i a * G i o * V.w a o := by
      rw [Finset.sum_comm]
      simp only [Finset.sum_mul]
      rw [Finset.sum_congr rfl fun o _ => Finset.sum_comm, Finset.sum_comm]
    have e2 : ∑ o ∈ Finset.range co, (∑ i, G i o) * V.b o = ∑ i, ∑ o ∈ Finset.range co, G i o * V.b o := by
      simp only [Finset.sum_mul]
      rw [Finset.sum_comm]
    rw [e1, e2, ← Finset.sum_add_distrib, ← Finset.sum_add_distrib]
    refine Finset.sum_congr rfl fun i _ => ?_
    have e3 : ∑ a ∈ Finset.range ci, (∑ o ∈ Finset.range co, G i o * (l θ₀).w a o) * f' i a =
        ∑ o ∈ Finset.range co, ∑ a ∈ Finset.range ci, G i o * (l θ₀).w a o * f' i a := by
      simp only [Finset.sum_mul]
      rw [Finset.sum_comm]
    rw [e3, ← Finset.sum_add_distrib, ← Finset.sum_add_distrib]
    refine Finset.sum_congr rfl fun o _ => ?_
    rw [mul_add, Finset.mul_sum, add_right_comm, ← Finset.sum_add_distrib]
    congr 1
    exact Finset.sum_congr rfl fun a _ => by ring

/-- One channel of a batch normalisation in training. -/
theorem bn_deriv {n : ℕ} (hn : 0 < n) (e : ℝ) (he : 0 < e) (θ₀ : ℝ) (γ β : ℝ → ℝ) (γ' β' : ℝ) (hγ : HasDerivAt γ γ' θ₀)
    (hβ : HasDerivAt β β' θ₀) (x : ℝ → Fin n → ℝ) (x' : Fin n → ℝ) (hx : ∀ i, HasDerivAt (fun θ => x θ i) (x' i) θ₀)
    (μ v r : ℝ) (hμ : μ = (∑ j, x θ₀ j) / (n : ℝ)) (hv : v = (∑ j, (x θ₀ j - μ) ^ 2) / (n : ℝ))
    (hr : r = 1 / Real.sqrt (v + e)) (i : Fin n) :
    HasDerivAt (fun θ => γ θ * ((x θ i - (∑ j, x θ j) / (n : ℝ)) /
        Real.sqrt ((∑ j, (x θ j - (∑ j, x θ j) / (n : ℝ)) ^ 2) / (n : ℝ) + e)) + β θ)
      (γ' * ((x θ₀ i - μ) * r) + γ θ₀ * ((x' i - (∑ j, x' j) / (n : ℝ)) * r +
        (x θ₀ i - μ) * (-(1 / 2) * r ^ 3 * (2 / (n : ℝ) * ∑ j, (x θ₀ j - μ) * x' j))) + β') θ₀ := by
  have hn' : (n : ℝ) ≠ 0 := by positivity
  have hmu : HasDerivAt (fun θ => (∑ j, x θ j) / (n : ℝ)) ((∑ j, x' j) / (n : ℝ)) θ₀ :=
    (HasDerivAt.fun_sum fun j _ => hx j).div_const _
  have hva : HasDerivAt (fun θ => (∑ j, (x θ j - (∑ j, x θ j) / (n : ℝ)) ^ 2) / (n : ℝ))
      ((∑ j, 2 * (x θ₀ j - μ) * (x' j - (∑ j, x' j) / (n : ℝ))) / (n : ℝ)) θ₀ := by
    refine (HasDerivAt.fun_sum fun j _ => ?_).div_const _
    have := ((hx j).sub hmu).fun_pow 2
    refine this.congr_deriv ?_
    rw [hμ]
    push_cast
    simp
  have hvn : 0 ≤ v := by
    rw [hv]
    exact div_nonneg (Finset.sum_nonneg fun j _ => sq_nonneg _) (Nat.cast_nonneg _)
  have hpos : 0 < v + e := by linarith
  have hv' : (∑ j, (x θ₀ j - (∑ j, x θ₀ j) / (n : ℝ)) ^ 2) / (n : ℝ) + e = v + e := by rw [hv, hμ]
  have hsq := (hva.add_const e).sqrt (by rw [hv']; exact hpos.ne')
  have hspos : 0 < Real.sqrt (v + e) := Real.sqrt_pos.mpr hpos
  have hq := ((hx i).sub hmu).div hsq (by rw [hv']; exact hspos.ne')
  have h := (hγ.mul hq).add hβ
  refine h.congr_deriv ?_
  have hsum : ∑ j, 2 * (x θ₀ j - μ) * (x' j - (∑ j, x' j) / (n : ℝ)) = 2 * ∑ j, (x θ₀ j - μ) * x' j := by
    have hz : ∑ j, (x θ₀ j - μ) = 0 := by
      rw [Finset.sum_sub_distrib, Finset.sum_const, Finset.card_univ, Fintype.card_fin, nsmul_eq_mul, hμ, mul_div_cancel₀ _ hn',
        sub_self]
    have : ∑ j, 2 * (x θ₀ j - μ) * (x' j - (∑ j, x' j) / (n : ℝ)) =
        2 * ∑ j, (x θ₀ j - μ) * x' j - 2 * ((∑ j, x' j) / (n : ℝ)) * ∑ j, (x θ₀ j - μ) := by
      rw [Finset.mul_sum, Finset.mul_sum, ← Finset.sum_sub_distrib]
      exact Finset.sum_congr rfl fun j _ => by ring
    rw [this, hz, mul_zero, sub_zero]
  dsimp only [Pi.sub_apply, Pi.div_apply]
  rw [hsum, hv', ← hμ]
  generalize (∑ j, (x θ₀ j - μ) * x' j) = S
  generalize (∑ j, x' j) / (n : ℝ) = m'
  rw [hr]
  have hss : Real.sqrt (v + e) ^ 2 = v + e := Real.sq_sqrt hpos.le
  generalize Real.sqrt (v + e) = s at hspos hss ⊢
  have := hspos.ne'
  clear hq hsq hva h
  field_simp
  ring

/-- `gamma` and `beta` of a normalisation have the velocities of `V`. -/
def BnMoves (θ₀ : ℝ) (c : ℕ) (bn : ℝ → BNorm) (V : BNorm) : Prop :=
  (∀ θ, (bn θ).eps = (bn θ₀).eps) ∧ 0 < (bn θ₀).eps ∧ (∀ ch < c, HasDerivAt (fun θ => (bn θ).gamma ch) (V.gamma ch) θ₀) ∧
    ∀ ch < c, HasDerivAt (fun θ => (bn θ).beta ch) (V.beta ch) θ₀

/-- Gradients times velocities of the parameters. -/
def bnPairing (c : ℕ) {n : ℕ} (g : BnGrads n) (V : BNorm) : ℝ :=
  ∑ ch ∈ Finset.range c, (g.gamma ch * V.gamma ch + g.beta ch * V.beta ch)

/-- **C159, batch normalisation in training**: the same with the gradients of a normalisation, although the mean inside
the variance is treated as a constant. -/
theorem C159_batchNorm (θ₀ : ℝ) (c : ℕ) (bn : ℝ → BNorm) (V : BNorm) (hb : BnMoves θ₀ c bn V) {n : ℕ}
    (f : ℝ → Fin n → ℕ → ℝ) (f' : Fin n → ℕ → ℝ) (hf : MatMoves θ₀ c f f') :
    ∃ o', MatMoves θ₀ c (fun θ => (bn θ).apply true (f θ)) o' ∧ ∀ G, matPairing c G o' =
      bnPairing c ((bn θ₀).grad (f θ₀) G) V + matPairing c ((bn θ₀).grad (f θ₀) G).x f' := by
  obtain ⟨he, hpos, hg, hbe⟩ := hb
  set mu := fun ch => (∑ j, f θ₀ j ch) / (n : ℝ) with hmu
  set va := fun ch => (∑ j, (f θ₀ j ch - mu ch) ^ 2) / (n : ℝ) with hva
  set r := fun ch => 1 / Real.sqrt (va ch + (bn θ₀).eps) with hr
  refine ⟨fun i ch => V.gamma ch * ((f θ₀ i ch - mu ch) * r ch) + (bn θ₀).gamma ch * ((f' i ch - (∑ j, f' j ch) / (n : ℝ)) * r ch +
        (f θ₀ i ch - mu ch) * (-(1 / 2) * r ch ^ 3 * (2 / (n : ℝ) * ∑ j, (f θ₀ j ch - mu ch) * f' j ch))) + V.beta ch, ?_, ?_⟩
  · intro i ch hch
    simp only [BNorm.apply, if_true, he]
    exact bn_deriv (Nat.pos_of_ne_zero (by rintro rfl; exact i.elim0)) _ hpos θ₀ _ _ _ _ (hg ch hch) (hbe ch hch)
      (fun θ j => f θ j ch) (fun j => f' j ch) (fun j => hf j ch hch) (mu ch) (va ch) (r ch) rfl rfl rfl i
  · intro G
    simp only [matPairing, bnPairing]
    have q1 : ∀ ch, ((bn θ₀).grad (f θ₀) G).gamma ch = (∑ j, G j ch * f θ₀ j ch - mu ch * ∑ j, G j ch) * r ch := fun _ => rfl
    have q2 : ∀ ch, ((bn θ₀).grad (f θ₀) G).beta ch = ∑ j, G j ch := fun _ => rfl
    have q3 : ∀ i ch, ((bn θ₀).grad (f θ₀) G).x i ch = G i ch * (r ch * (bn θ₀).gamma ch) +
        -(r ch * (bn θ₀).gamma ch * ∑ j, G j ch) / n +
        (∑ j, G j ch * f θ₀ j ch - mu ch * ∑ j, G j ch) * (bn θ₀).gamma ch * (-(1 / 2) * r ch ^ 3) / n *
          (2 * (f θ₀ i ch - mu ch)) := fun _ _ => rfl
    simp only [q1, q2, q3]
    clear_value r
    rw [Finset.sum_comm, Finset.sum_comm (s := Finset.univ) (t := Finset.range c), ← Finset.sum_add_distrib]
    refine Finset.sum_congr rfl fun ch _ => ?_
    have l1 : ∑ i, G i ch * (V.gamma ch * ((f θ₀ i ch - mu ch) * r ch) + (bn θ₀).gamma ch * ((f' i ch - (∑ j, f' j ch) / (n : ℝ)) * r ch +
        (f θ₀ i ch - mu ch) * (-(1 / 2) * r ch ^ 3 * (2 / (n : ℝ) * ∑ j, (f θ₀ j ch - mu ch) * f' j ch))) + V.beta ch) =
        V.gamma ch * r ch * (∑ i, G i ch * f θ₀ i ch - mu ch * ∑ i, G i ch) +
        (bn θ₀).gamma ch * r ch * (∑ i, G i ch * f' i ch - (∑ j, f' j ch) / (n : ℝ) * ∑ i, G i ch) +
        (bn θ₀).gamma ch * (-(1 / 2) * r ch ^ 3 * (2 / (n : ℝ) * ∑ j, (f θ₀ j ch - mu ch) * f' j ch)) *
          (∑ i, G i ch * f θ₀ i ch - mu ch * ∑ i, G i ch) + V.beta ch * ∑ i, G i ch := by
      generalize (∑ j, f' j ch) / (n : ℝ) = m'
      generalize (-(1 / 2) * r ch ^ 3 * (2 / (n : ℝ) * ∑ j, (f θ₀ j ch - mu ch) * f' j ch)) = T
      simp only [Finset.mul_sum, ← Finset.sum_sub_distrib, ← Finset.sum_add_distrib]
      exact Finset.sum_congr rfl fun j _ => by ring
    have l2 : ∀ (A M W : ℝ), ∑ i, (G i ch * A + M + W * (2 * (f θ₀ i ch - mu ch))) * f' i ch =
        A * ∑ i, G i ch * f' i ch + M * ∑ i, f' i ch + 2 * W * ∑ i, (f θ₀ i ch - mu ch) * f' i ch := by
      intro A M W
      simp only [Finset.mul_sum, ← Finset.sum_add_distrib]
      exact Finset.sum_congr rfl fun j _ => by ring
    rw [l1, l2]
    ring

theorem kerasLrelu_deriv (z : ℝ) (hz : z ≠ 0) : HasDerivAt kerasLrelu (kerasLreluGrad z) z := by
  unfold kerasLreluGrad
  rcases lt_or_gt_of_ne hz with h | h
  · rw [if_neg (not_lt.mpr h.le)]
    have : ∀ᶠ t in 𝓝 z, kerasLrelu t = 3 / 10 * t := by
      filter_upwards [eventually_lt_nhds h] with t ht
      exact max_eq_left (by linarith)
    have h2 : HasDerivAt (fun t : ℝ => 3 / 10 * t) (3 / 10) z := by
      simpa using (hasDerivAt_id z).const_mul (3 / 10 : ℝ)
    exact h2.congr_of_eventuallyEq this
  · rw [if_pos h]
    have : ∀ᶠ t in 𝓝 z, kerasLrelu t = t := by
      filter_upwards [eventually_gt_nhds h] with t ht
      exact max_eq_right (by linarith)
    exact (hasDerivAt_id z).congr_of_eventuallyEq this

/-- No activation that is used is at its kink: `m` are the dropout factors. -/
def OffKink (c : ℕ) {n : ℕ} (m a : Fin n → ℕ → ℝ) : Prop := ∀ i, ∀ ch < c, m i ch = 0 ∨ a i ch ≠ 0

/-- Activation, then dropout. -/
theorem act_mask (θ₀ : ℝ) (c : ℕ) {n : ℕ} (m : Fin n → ℕ → ℝ) (a : ℝ → Fin n → ℕ → ℝ) (a' : Fin n → ℕ → ℝ)
    (ha : MatMoves θ₀ c a a') (hk : OffKink c m (a θ₀)) :
    ∃ o', MatMoves θ₀ c (fun θ => maskMul m (fun i ch => kerasLrelu (a θ i ch))) o' ∧
      ∀ G, matPairing c G o' = matPairing c (actBack (a θ₀) (maskMul m G)) a' := by
  refine ⟨fun i ch => kerasLreluGrad (a θ₀ i ch) * a' i ch * m i ch, fun i ch hch => ?_, fun G => ?_⟩
  · rcases hk i ch hch with h | h
    · simp only [maskMul, h, mul_zero]
      exact hasDerivAt_const _ _
    · exact ((kerasLrelu_deriv _ h).comp θ₀ (ha i ch hch)).mul_const _
  · refine Finset.sum_congr rfl fun i _ => Finset.sum_congr rfl fun ch _ => ?_
    simp only [actBack, maskMul]
    ring

/-- Dropout, then activation. -/
theorem mask_act (θ₀ : ℝ) (c : ℕ) {n : ℕ} (m : Fin n → ℕ → ℝ) (a : ℝ → Fin n → ℕ → ℝ) (a' : Fin n → ℕ → ℝ)
    (ha : MatMoves θ₀ c a a') (hk : OffKink c m (a θ₀)) :
    ∃ o', MatMoves θ₀ c (fun θ i ch => kerasLrelu (maskMul m (a θ) i ch)) o' ∧
      ∀ G, matPairing c G o' = matPairing c (maskMul m (actBack (maskMul m (a θ₀)) G)) a' := by
  refine ⟨fun i ch => kerasLreluGrad (a θ₀ i ch * m i ch) * (a' i ch * m i ch), fun i ch hch => ?_, fun G => ?_⟩
  · by_cases h0 : m i ch = 0
    · simp only [maskMul, h0, mul_zero]
      exact hasDerivAt_const _ _
    · have h := (hk i ch hch).resolve_left h0
      exact (kerasLrelu_deriv _ (mul_ne_zero h h0)).comp θ₀ ((ha i ch hch).mul_const _)
  · refine Finset.sum_congr rfl fun i _ => Finset.sum_congr rfl fun ch _ => ?_
    simp only [actBack, maskMul]
    ring

/-! ### The heads -/

/-- The trainable parameters of a head have the velocities of `V`; `c0`, `c1`, `C` are the numbers of features before
and between the dense layers and the number of classes. -/
structure HeadMoves (θ₀ : ℝ) (c0 c1 C : ℕ) (h : ℝ → NetHead) (V : NetHead) : Prop where
  bn1 : BnMoves θ₀ c0 (fun θ => (h θ).bn1) V.bn1
  dense1 : LinMoves θ₀ c0 c1 (fun θ => (h θ).dense1) V.dense1
  bn2 : BnMoves θ₀ c1 (fun θ => (h θ).bn2) V.bn2
  dense2 : LinMoves θ₀ c1 C (fun θ => (h θ).dense2) V.dense2

/-- Gradients times velocities of all parameters of a head. -/
def headPairing (c0 c1 C : ℕ) {n : ℕ} (g : HeadGrads n) (V : NetHead) : ℝ :=
  bnPairing c0 g.bn1 V.bn1 + linPairing c0 c1 g.dense1 V.dense1 + bnPairing c1 g.bn2 V.bn2 + linPairing c1 C g.dense2 V.dense2

/-- The head is run in training, with the library's activation and dropout with the factors `m1` and `m2`. -/
structure TrainEnvOk (E : NetEnv) {n : ℕ} (m1 m2 : Fin n → ℕ → ℝ) : Prop where
  training : E.training = true
  lrelu : E.lrelu = kerasLrelu
  drop1 : E.drop1 n = maskMul m1
  drop2 : E.drop2 n = maskMul m2

/-- **C159, head of the small network**: the logits move with velocities whose pairing with any gradient is the sum of
all returned gradients times the velocities of parameters and features. -/
theorem head_small (E : NetEnv) (θ₀ : ℝ) (c0 c1 C : ℕ) (h : ℝ → NetHead) (V : NetHead) (hV : HeadMoves θ₀ c0 c1 C h V) {n : ℕ}
    (m1 m2 : Fin n → ℕ → ℝ) (hE : TrainEnvOk E m1 m2)
    (f : ℝ → Fin n → ℕ → ℝ) (f' : Fin n → ℕ → ℝ) (hf : MatMoves θ₀ c0 f f')
    (hk1 : OffKink c0 m1 ((h θ₀).bn1.apply true (f θ₀)))
    (hk2 : OffKink c1 m2 ((h θ₀).bn2.apply true ((h θ₀).dense1.apply
      (maskMul m1 (fun i ch => kerasLrelu ((h θ₀).bn1.apply true (f θ₀) i ch)))))) :
    ∃ o', MatMoves θ₀ C (fun θ => (h θ).runSmall E (f θ)) o' ∧ ∀ G, matPairing C G o' =
      headPairing c0 c1 C ((h θ₀).backSmall c1 C m1 m2 (f θ₀) G) V +
        matPairing c0 ((h θ₀).backSmall c1 C m1 m2 (f θ₀) G).bn1.x f' := by
  have hrun : ∀ θ, (h θ).runSmall E (f θ) = (h θ).dense2.apply (maskMul m2 (fun i ch => kerasLrelu ((h θ).bn2.apply true
      ((h θ).dense1.apply (maskMul m1 (fun i ch => kerasLrelu ((h θ).bn1.apply true (f θ) i ch)))) i ch))) := by
    intro θ
    unfold NetHead.runSmall NetEnv.dropout2 NetEnv.dropout1
    rw [if_pos hE.training, if_pos hE.training, hE.drop1, hE.drop2]
    unfold NetEnv.bnAct
    rw [hE.training, hE.lrelu]
  simp only [hrun]
  obtain ⟨a1', h1, p1⟩ := C159_batchNorm θ₀ c0 _ _ hV.bn1 f f' hf
  obtain ⟨d1', h2, p2⟩ := act_mask θ₀ c0 m1 _ a1' h1 hk1
  obtain ⟨z', h3, p3⟩ := C159_linear θ₀ c0 c1 _ _ hV.dense1 _ d1' h2
  obtain ⟨a2', h4, p4⟩ := C159_batchNorm θ₀ c1 _ _ hV.bn2 _ z' h3
  obtain ⟨d2', h5, p5⟩ := act_mask θ₀ c1 m2 _ a2' h4 hk2
  obtain ⟨o', h6, p6⟩ := C159_linear θ₀ c1 C _ _ hV.dense2 _ d2' h5
  refine ⟨o', h6, fun G => ?_⟩
  rw [p6, p5, p4, p3, p2, p1]
  unfold headPairing NetHead.backSmall
  ring

/-- The same for modelnet40.py. -/
theorem head_40 (E : NetEnv) (θ₀ : ℝ) (c0 c1 C : ℕ) (h : ℝ → NetHead) (V : NetHead) (hV : HeadMoves θ₀ c0 c1 C h V) {n : ℕ}
    (m1 m2 : Fin n → ℕ → ℝ) (hE : TrainEnvOk E m1 m2)
    (f : ℝ → Fin n → ℕ → ℝ) (f' : Fin n → ℕ → ℝ) (hf : MatMoves θ₀ c0 f f')
    (hk1 : OffKink c0 m1 ((h θ₀).bn1.apply true (f θ₀)))
    (hk2 : OffKink c1 m2 ((h θ₀).bn2.apply true ((h θ₀).dense1.apply
      (maskMul m1 (fun i ch => kerasLrelu ((h θ₀).bn1.apply true (f θ₀) i ch)))))) :
    ∃ o', MatMoves θ₀ C (fun θ => (h θ).run40 E (f θ)) o' ∧ ∀ G, matPairing C G o' =
      headPairing c0 c1 C ((h θ₀).back40 c1 C m1 m2 (f θ₀) G) V +
        matPairing c0 ((h θ₀).back40 c1 C m1 m2 (f θ₀) G).bn1.x f' := by
  have hrun : ∀ θ, (h θ).run40 E (f θ) = (h θ).dense2.apply (fun i ch => kerasLrelu (maskMul m2 ((h θ).bn2.apply true
      ((h θ).dense1.apply (maskMul m1 (fun i ch => kerasLrelu ((h θ).bn1.apply true (f θ) i ch))))) i ch)) := by
    intro θ
    unfold NetHead.run40 NetEnv.dropout2 NetEnv.dropout1
    rw [if_pos hE.training, if_pos hE.training, hE.drop1, hE.drop2]
    unfold NetEnv.bnAct
    rw [hE.training, hE.lrelu]
  simp only [hrun]
  obtain ⟨a1', h1, p1⟩ := C159_batchNorm θ₀ c0 _ _ hV.bn1 f f' hf
  obtain ⟨d1', h2, p2⟩ := act_mask θ₀ c0 m1 _ a1' h1 hk1
  obtain ⟨z', h3, p3⟩ := C159_linear θ₀ c0 c1 _ _ hV.dense1 _ d1' h2
  obtain ⟨a2', h4, p4⟩ := C159_batchNorm θ₀ c1 _ _ hV.bn2 _ z' h3
  obtain ⟨d2', h5, p5⟩ := mask_act θ₀ c1 m2 _ a2' h4 hk2
  obtain ⟨o', h6, p6⟩ := C159_linear θ₀ c1 C _ _ hV.dense2 _ d2' h5
  refine ⟨o', h6, fun G => ?_⟩
  rw [p6, p5, p4, p3, p2, p1]
  unfold headPairing NetHead.back40
  ring

/-- **C159**: parameters of the head and its input features move along any curve differentiable at `θ₀`; there no used
activation is at its kink and no probability at a bound of the clipping.  Then the training loss has the derivative that
the gradients returned for the parameters and for the features predict; for both networks. -/
theorem C159_head_partial (E : NetEnv) (θ₀ : ℝ) (c0 c1 C : ℕ) (e : ℝ) (he : 0 < e) (he' : e < 1 / 2) (h : ℝ → NetHead)
    (V : NetHead) (hV : HeadMoves θ₀ c0 c1 C h V) {n : ℕ}
    (m1 m2 : Fin n → ℕ → ℝ) (hE : TrainEnvOk E m1 m2) (labels : Fin n → ℕ) (hlab : ∀ b, labels b < C)
    (f : ℝ → Fin n → ℕ → ℝ) (f' : Fin n → ℕ → ℝ) (hf : MatMoves θ₀ c0 f f')
    (hk1 : OffKink c0 m1 ((h θ₀).bn1.apply true (f θ₀)))
    (hk2 : OffKink c1 m2 ((h θ₀).bn2.apply true ((h θ₀).dense1.apply
      (maskMul m1 (fun i ch => kerasLrelu ((h θ₀).bn1.apply true (f θ₀) i ch)))))) :
    ((∀ b, OffClip C e ((h θ₀).runSmall E (f θ₀) b)) →
      ∀ g, g = (h θ₀).backSmall c1 C m1 m2 (f θ₀) (trainLossGrad C e labels ((h θ₀).runSmall E (f θ₀))) →
      HasDerivAt (fun θ => trainLoss C e labels ((h θ).runSmall E (f θ)))
        (headPairing c0 c1 C g V + matPairing c0 g.bn1.x f') θ₀) ∧
    ((∀ b, OffClip C e ((h θ₀).run40 E (f θ₀) b)) →
      ∀ g, g = (h θ₀).back40 c1 C m1 m2 (f θ₀) (trainLossGrad C e labels ((h θ₀).run40 E (f θ₀))) →
      HasDerivAt (fun θ => trainLoss C e labels ((h θ).run40 E (f θ)))
        (headPairing c0 c1 C g V + matPairing c0 g.bn1.x f') θ₀) := by
  constructor
  · rintro hoff g rfl
    obtain ⟨o', h1, p1⟩ := head_small E θ₀ c0 c1 C h V hV m1 m2 hE f f' hf hk1 hk2
    rw [← p1]
    exact C159_loss_partial C e he he' labels hlab θ₀ _ o' h1 hoff
  · rintro hoff g rfl
    obtain ⟨o', h1, p1⟩ := head_40 E θ₀ c0 c1 C h V hV m1 m2 hE f f' hf hk1 hk2
    rw [← p1]
    exact C159_loss_partial C e he he' labels hlab θ₀ _ o' h1 hoff

/-! ### Parameters without effect -/

/-- The gradients of the features of a normalisation add up to zero in every channel. -/
theorem C159_bnSum (bn : BNorm) {n : ℕ} (hn : 0 < n) (f G : Fin n → ℕ → ℝ) (ch : ℕ) : ∑ i, (bn.grad f G).x i ch = 0 := by
  have hn' : (n : ℝ) ≠ 0 := by positivity
  set mu := fun ch => (∑ j, f j ch) / (n : ℝ) with hmu
  set r := fun ch => 1 / Real.sqrt ((∑ j, (f j ch - mu ch) ^ 2) / (n : ℝ) + bn.eps) with hr
  have q3 : ∀ i, (bn.grad f G).x i ch = G i ch * (r ch * bn.gamma ch) + -(r ch * bn.gamma ch * ∑ j, G j ch) / n +
      (∑ j, G j ch * f j ch - mu ch * ∑ j, G j ch) * bn.gamma ch * (-(1 / 2) * r ch ^ 3) / n *
        (2 * (f i ch - mu ch)) := fun _ => rfl
  simp only [q3]
  clear_value r
  rw [Finset.sum_add_distrib, Finset.sum_add_distrib, ← Finset.sum_mul, Finset.sum_const, Finset.card_univ, Fintype.card_fin,
    nsmul_eq_mul, ← Finset.mul_sum, ← Finset.mul_sum, Finset.sum_sub_distrib, Finset.sum_const, Finset.card_univ, Fintype.card_fin,
    nsmul_eq_mul, hmu]
  dsimp only
  rw [mul_div_cancel₀ _ hn', mul_div_cancel₀ _ hn', sub_self]
  ring

/-- In training the bias of the first dense layer has no effect on the logits, and its gradient is zero. -/
theorem C159_deadBias (h : NetHead) (c1 C : ℕ) {n : ℕ} (hn : 0 < n) (m1 m2 f G : Fin n → ℕ → ℝ) (o : ℕ) :
    (h.backSmall c1 C m1 m2 f G).dense1.b o = 0 ∧ (h.back40 c1 C m1 m2 f G).dense1.b o = 0 :=
  ⟨C159_bnSum _ hn _ _ o, C159_bnSum _ hn _ _ o⟩

/-- A shift of a channel is undone by the normalisation. -/
theorem C159_shift (bn : BNorm) {n : ℕ} (f : Fin n → ℕ → ℝ) (s : ℕ → ℝ) :
    bn.apply true (fun i ch => f i ch + s ch) = bn.apply true f := by
  funext i ch
  have hn : (n : ℝ) ≠ 0 := by
    have : 0 < n := Nat.pos_of_ne_zero (by rintro rfl; exact i.elim0)
    positivity
  have hm : (∑ j : Fin n, (f j ch + s ch)) / (n : ℝ) = (∑ j, f j ch) / (n : ℝ) + s ch := by
    rw [Finset.sum_add_distrib, Finset.sum_const, Finset.card_univ, Fintype.card_fin, nsmul_eq_mul, add_div, mul_div_cancel_left₀ _ hn]
  simp only [BNorm.apply, if_true, hm, add_sub_add_right_eq_sub]

/-- The logits in training are the same for every bias of the first dense layer. -/
theorem C159_deadBias_forward (E : NetEnv) (hE : E.training = true) (h : NetHead) (b : ℕ → ℝ) {n : ℕ} (f : Fin n → ℕ → ℝ) :
    NetHead.runSmall E { h with dense1 := { h.dense1 with b := b } } f = h.runSmall E f ∧
      NetHead.run40 E { h with dense1 := { h.dense1 with b := b } } f = h.run40 E f := by
  have key : ∀ d : Fin n → ℕ → ℝ, h.bn2.apply true (({ h.dense1 with b := b } : Lin).apply d) = h.bn2.apply true (h.dense1.apply d) := by
    intro d
    rw [← C159_shift h.bn2 (h.dense1.apply d) (fun ch => b ch - h.dense1.b ch)]
    congr 1
    funext i ch
    simp only [Lin.apply, conv1x1]
    ring
  unfold NetHead.runSmall NetHead.run40 NetEnv.bnAct
  simp only [hE, key, and_self]

/-- With a single row no gradient passes a normalisation: nothing before it learns from a batch of one shape. -/
theorem C159_single (bn : BNorm) (f G : Fin 1 → ℕ → ℝ) (i : Fin 1) (ch : ℕ) : (bn.grad f G).x i ch = 0 := by
  have := C159_bnSum bn Nat.one_pos f G ch
  rw [Fin.sum_univ_one] at this
  rw [Subsingleton.elim i 0]
  exact this

/-! ### The hypotheses can be met -/

theorem bn_two_ne (bn : BNorm) (f : Fin 2 → ℕ → ℝ) (ch : ℕ) (hne : f 0 ch ≠ f 1 ch) (hg : bn.gamma ch ≠ 0) (hb : bn.beta ch = 0)
    (he : 0 < bn.eps) (i : Fin 2) : bn.apply true f i ch ≠ 0 := by
  have hs : 0 < Real.sqrt ((∑ j, (f j ch - (∑ j, f j ch) / ((2 : ℕ) : ℝ)) ^ 2) / ((2 : ℕ) : ℝ) + bn.eps) :=
    Real.sqrt_pos.mpr (add_pos_of_nonneg_of_pos (div_nonneg (Finset.sum_nonneg fun j _ => sq_nonneg _) (Nat.cast_nonneg _)) he)
  simp only [BNorm.apply, if_true, hb, add_zero]
  refine mul_ne_zero hg (div_ne_zero ?_ hs.ne')
  rw [Fin.sum_univ_two]
  fin_cases i
  · intro h
    apply hne
    simp at h
    linarith
  · intro h
    apply hne
    simp at h
    linarith

/-- A head with one feature and two classes; the first dense layer and the weights of the last one move. -/
noncomputable def exHead (θ : ℝ) : NetHead :=
  ⟨⟨fun _ => 1, fun _ => 0, fun _ => 0, fun _ => 0, 1⟩, ⟨1, fun _ _ => 1 + θ, fun _ => θ⟩,
    ⟨fun _ => 1, fun _ => 0, fun _ => 0, fun _ => 0, 1⟩, ⟨1, fun _ o => if o = 0 then θ else 0, fun _ => 0⟩⟩

/-- Its velocities. -/
noncomputable def exHeadV : NetHead :=
  ⟨⟨fun _ => 0, fun _ => 0, fun _ => 0, fun _ => 0, 1⟩, ⟨1, fun _ _ => 1, fun _ => 1⟩,
    ⟨fun _ => 0, fun _ => 0, fun _ => 0, fun _ => 0, 1⟩, ⟨1, fun _ o => if o = 0 then 1 else 0, fun _ => 0⟩⟩

example : ∃ (E : NetEnv) (f : Fin 2 → ℕ → ℝ) (m : Fin 2 → ℕ → ℝ), TrainEnvOk E m m ∧ HeadMoves 0 1 1 2 exHead exHeadV ∧
    OffKink 1 m ((exHead 0).bn1.apply true f) ∧
    OffKink 1 m ((exHead 0).bn2.apply true ((exHead 0).dense1.apply
      (maskMul m (fun i ch => kerasLrelu ((exHead 0).bn1.apply true f i ch))))) ∧
    (∀ b, OffClip 2 (1 / 10 ^ 7) ((exHead 0).runSmall E f b)) ∧ ∀ b, OffClip 2 (1 / 10 ^ 7) ((exHead 0).run40 E f b) := by
  refine ⟨⟨id, id, kerasLrelu, 0, .gpu, 0, true, fun n f => maskMul (fun _ _ => 2) f, fun n f => maskMul (fun _ _ => 2) f⟩,
    fun i _ => if i = 0 then 1 else -1, fun _ _ => 2, ⟨rfl, rfl, rfl, rfl⟩, ?_, ?_, ?_, ?_, ?_⟩
  · have hid : HasDerivAt (fun θ : ℝ => θ) 1 0 := hasDerivAt_id 0
    refine ⟨⟨fun _ => rfl, one_pos, fun _ _ => hasDerivAt_const _ _, fun _ _ => hasDerivAt_const _ _⟩,
      ⟨fun _ => rfl, fun _ _ _ _ => hid.const_add 1, fun _ _ => hid⟩,
      ⟨fun _ => rfl, one_pos, fun _ _ => hasDerivAt_const _ _, fun _ _ => hasDerivAt_const _ _⟩,
      ⟨fun _ => rfl, fun a _ o _ => ?_, fun _ _ => hasDerivAt_const _ _⟩⟩
    by_cases ho : o = 0
    · simp only [exHead, exHeadV, ho, if_true]
      exact hid
    · simp only [exHead, exHeadV, ho, if_false]
      exact hasDerivAt_const _ _
  · intro i ch _
    exact Or.inr (bn_two_ne _ _ ch (by norm_num) one_ne_zero rfl one_pos i)
  · intro i ch hch
    obtain rfl : ch = 0 := by omega
    refine Or.inr (bn_two_ne _ _ 0 ?_ one_ne_zero rfl one_pos i)
    have h1 : (exHead 0).bn1.apply true (fun (i : Fin 2) (_ : ℕ) => if i = 0 then (1 : ℝ) else -1) 0 0 = 1 / Real.sqrt 2 := by
      simp [exHead, BNorm.apply, Fin.sum_univ_two]
      norm_num
    have h2 : (exHead 0).bn1.apply true (fun (i : Fin 2) (_ : ℕ) => if i = 0 then (1 : ℝ) else -1) 1 0 = -(1 / Real.sqrt 2) := by
      simp [exHead, BNorm.apply, Fin.sum_univ_two]
      norm_num
      ring
    have hs : 0 < 1 / Real.sqrt 2 := by positivity
    simp only [Lin.apply, conv1x1, maskMul, exHead, Finset.sum_range_one]
    simp only [exHead] at h1 h2
    rw [h1, h2]
    unfold kerasLrelu
    rw [max_eq_right (by linarith), max_eq_left (by linarith)]
    intro h
    linarith
  all_goals
    intro b j hj
    have hsm : ∀ x : ℕ → ℝ, (∀ j < 2, x j = 0) → softmaxRow 2 x j = 1 / 2 := by
      intro x hx
      unfold softmaxRow
      rw [Finset.sum_range_succ, Finset.sum_range_one, hx 0 (by omega), hx 1 (by omega), hx j hj, Real.exp_zero]
      norm_num
    rw [hsm]
    · constructor <;> norm_num
    · intro j hj
      simp only [NetHead.runSmall, NetHead.run40, Lin.apply, conv1x1, exHead, Finset.sum_range_one]
      split <;> simp

end PC
