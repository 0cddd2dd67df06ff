import Verif.Optim
import Verif.Props.NetGrad40
import Mathlib.Analysis.SpecificLimits.Basic

/-!
# Properties of the updates of the variables (C162)
-/

set_option linter.unusedVariables false
set_option linter.unusedSectionVars false

namespace PC

open Filter Topology

/-! ### Single numbers -/

theorem rmsAcc_nonneg {ρ ms : ℝ} (h0 : 0 ≤ ρ) (h1 : ρ ≤ 1) (hms : 0 ≤ ms) (g : ℝ) : 0 ≤ rmsAcc ρ ms g := by
  unfold rmsAcc
  have := sub_nonneg.mpr h1
  positivity

/-- The scaled gradient has at most size `1 / √(1 - ρ)`, whatever the gradient. -/
theorem rmsDir_le {ρ ε ms : ℝ} (h0 : 0 ≤ ρ) (h1 : ρ < 1) (hε : 0 < ε) (hms : 0 ≤ ms) (g : ℝ) :
    |rmsDir ρ ε ms g| ≤ 1 / √(1 - ρ) := by
  have h1' : 0 < 1 - ρ := by linarith
  have hs : 0 < √(1 - ρ) := Real.sqrt_pos.mpr h1'
  have hr : √(1 - ρ) * |g| ≤ √(rmsAcc ρ ms g) := by
    rw [← Real.sqrt_sq_eq_abs, ← Real.sqrt_mul h1'.le]
    apply Real.sqrt_le_sqrt
    unfold rmsAcc
    nlinarith [mul_nonneg h0 hms]
  unfold rmsDir
  rw [abs_div, abs_of_pos (add_pos_of_nonneg_of_pos (Real.sqrt_nonneg _) hε), div_le_div_iff₀
    (add_pos_of_nonneg_of_pos (Real.sqrt_nonneg _) hε) hs]
  linarith

theorem rmsRun_acc {ρ ε : ℝ} (h0 : 0 ≤ ρ) (h1 : ρ ≤ 1) (lr g : ℕ → ℝ) (x : ℝ) {ms : ℝ} (hms : 0 ≤ ms) (n : ℕ) :
    0 ≤ (rmsRun ρ ε lr g x ms n).2 := by
  induction n with
  | zero => exact hms
  | succ n ih => exact rmsAcc_nonneg h0 h1 ih _

/-- **C162, one update**: no number of a variable moves by more than the learning rate divided by `√(1 - ρ)`, whatever the
gradients, now and before. -/
theorem C162_step {ρ ε : ℝ} (h0 : 0 ≤ ρ) (h1 : ρ < 1) (hε : 0 < ε) (lr g : ℕ → ℝ) (x : ℝ) {ms : ℝ} (hms : 0 ≤ ms) (n : ℕ)
    (hlr : 0 ≤ lr n) : |(rmsRun ρ ε lr g x ms (n + 1)).1 - (rmsRun ρ ε lr g x ms n).1| ≤ lr n / √(1 - ρ) := by
  have e : (rmsRun ρ ε lr g x ms (n + 1)).1 - (rmsRun ρ ε lr g x ms n).1 = -(lr n * rmsDir ρ ε (rmsRun ρ ε lr g x ms n).2 (g n)) := by
    simp only [rmsRun, rmsVar]
    ring
  rw [e, abs_neg, abs_mul, abs_of_nonneg hlr, div_eq_mul_one_div]
  exact mul_le_mul_of_nonneg_left (rmsDir_le h0 h1 hε (rmsRun_acc h0 h1.le lr g x hms n) _) hlr

theorem rmsRun_path {ρ ε : ℝ} (h0 : 0 ≤ ρ) (h1 : ρ < 1) (hε : 0 < ε) (lr g : ℕ → ℝ) (hlr : ∀ n, 0 ≤ lr n) (x : ℝ) {ms : ℝ}
    (hms : 0 ≤ ms) (n : ℕ) : |(rmsRun ρ ε lr g x ms n).1 - x| ≤ (∑ i ∈ Finset.range n, lr i) / √(1 - ρ) := by
  induction n with
  | zero => simp [rmsRun]
  | succ n ih =>
    have h := C162_step h0 h1 hε lr g x hms n (hlr n)
    rw [Finset.sum_range_succ, add_div]
    have := abs_add_le ((rmsRun ρ ε lr g x ms (n + 1)).1 - (rmsRun ρ ε lr g x ms n).1) ((rmsRun ρ ε lr g x ms n).1 - x)
    rw [sub_add_sub_cancel] at this
    linarith

/-- The learning rates of all steps of a training of any length add up to at most `20 len · init / (1 - rate)`. -/
theorem learningRate_sum {init rate : ℝ} (hi : 0 ≤ init) (h0 : 0 ≤ rate) (h1 : rate < 1) {len : ℕ} (hl : 0 < len) (n : ℕ) :
    ∑ i ∈ Finset.range n, learningRate init rate len i ≤ 20 * len * init / (1 - rate) := by
  have hn : n ≤ n * (20 * len) := Nat.le_mul_of_pos_right _ (by omega)
  have h1' : 0 < 1 - rate := by linarith
  have hb : ∀ q, ∑ i ∈ Finset.range (q * (20 * len)), learningRate init rate len i =
      ∑ j ∈ Finset.range q, (20 * len : ℕ) * (init * rate ^ j) := by
    intro q
    induction q with
    | zero => simp
    | succ q ih =>
      rw [Nat.succ_mul, Finset.sum_range_add, ih, Finset.sum_range_succ]
      congr 1
      rw [Finset.sum_congr rfl (g := fun _ => init * rate ^ q), Finset.sum_const, Finset.card_range, nsmul_eq_mul]
      intro i hi
      unfold learningRate
      rw [Nat.mul_comm q, Nat.mul_add_div (by omega), Nat.div_eq_of_lt (Finset.mem_range.mp hi), add_zero]
  have hnn : ∀ i, 0 ≤ learningRate init rate len i := fun i => mul_nonneg hi (pow_nonneg h0 _)
  calc ∑ i ∈ Finset.range n, learningRate init rate len i ≤ ∑ i ∈ Finset.range (n * (20 * len)), learningRate init rate len i :=
        Finset.sum_le_sum_of_subset_of_nonneg (fun i hi => Finset.mem_range.mpr (lt_of_lt_of_le (Finset.mem_range.mp hi) hn))
          (fun i _ _ => hnn i)
    _ = (20 * len * init) * ∑ j ∈ Finset.range n, rate ^ j := by
        rw [hb, Finset.mul_sum]
        refine Finset.sum_congr rfl fun j _ => ?_
        push_cast
        ring
    _ ≤ (20 * len * init) * (1 - rate)⁻¹ := by
        refine mul_le_mul_of_nonneg_left ?_ (by positivity)
        rw [← tsum_geometric_of_lt_one h0 h1]
        exact (summable_geometric_of_lt_one h0 h1).sum_le_tsum _ (fun i _ => pow_nonneg h0 i)
    _ = _ := by rw [div_eq_mul_inv]

/-- **C162, a whole training**: with the schedule of the scripts no number of a variable ever leaves the interval of
radius `20 len · init / (1 - rate) / √(1 - ρ)` around its first value, however long the training and whatever the
gradients. -/
theorem C162_training {ρ ε : ℝ} (h0 : 0 ≤ ρ) (h1 : ρ < 1) (hε : 0 < ε) {init rate : ℝ} (hi : 0 ≤ init) (hr0 : 0 ≤ rate)
    (hr1 : rate < 1) {len : ℕ} (hl : 0 < len) (g : ℕ → ℝ) (x : ℝ) (n : ℕ) :
    |(rmsRun ρ ε (learningRate init rate len) g x 0 n).1 - x| ≤ 20 * len * init / (1 - rate) / √(1 - ρ) :=
  (rmsRun_path h0 h1 hε _ g (fun i => mul_nonneg hi (pow_nonneg hr0 _)) x le_rfl n).trans
    (div_le_div_of_nonneg_right (learningRate_sum hi hr0 hr1 hl n) (Real.sqrt_nonneg _))

/-- **C162, the values of the scripts**: 0.001, 0.7 and 0.9; for `len` batches per epoch no number moves by more than
`0.22 len` in total, nor by more than 0.00317 in one update. -/
theorem C162_scripts {len : ℕ} (hl : 0 < len) (g : ℕ → ℝ) (x : ℝ) (n : ℕ) :
    |(rmsRun (9 / 10) (1 / 10 ^ 7) (learningRate (1 / 1000) (7 / 10) len) g x 0 n).1 - x| ≤ 22 / 100 * len ∧
    |(rmsRun (9 / 10) (1 / 10 ^ 7) (learningRate (1 / 1000) (7 / 10) len) g x 0 (n + 1)).1 -
      (rmsRun (9 / 10) (1 / 10 ^ 7) (learningRate (1 / 1000) (7 / 10) len) g x 0 n).1| ≤ 317 / 100000 := by
  have hs : (0.3158 : ℝ) ≤ √(1 - 9 / 10) := by
    apply Real.le_sqrt_of_sq_le
    norm_num
  have hl' : (0 : ℝ) < len := by exact_mod_cast hl
  constructor
  · refine (C162_training (by norm_num) (by norm_num) (by norm_num) (by norm_num) (by norm_num) (by norm_num) hl g x n).trans ?_
    rw [div_le_iff₀ (by linarith), show (20 : ℝ) * len * (1 / 1000) / (1 - 7 / 10) = len * (1 / 15) by ring]
    nlinarith
  · refine (C162_step (by norm_num) (by norm_num) (by norm_num) _ g x le_rfl n
      (mul_nonneg (by norm_num) (pow_nonneg (by norm_num) _))).trans ?_
    rw [div_le_iff₀ (by linarith)]
    have : learningRate (1 / 1000 : ℝ) (7 / 10) len n ≤ 1 / 1000 :=
      mul_le_of_le_one_right (by norm_num) (pow_le_one₀ (by norm_num) (by norm_num))
    nlinarith

/-- **C162, no gradient, no update**: a number whose gradient is zero in every step keeps its first value. -/
theorem C162_still (ρ ε : ℝ) (lr g : ℕ → ℝ) (x ms : ℝ) (n : ℕ) (hg : ∀ i < n, g i = 0) : (rmsRun ρ ε lr g x ms n).1 = x := by
  induction n with
  | zero => rfl
  | succ n ih =>
    simp only [rmsRun, rmsVar, rmsDir, hg n (by omega), zero_div, mul_zero, sub_zero]
    exact ih fun i hi => hg i (by omega)

/-- **C162, moving average**: the accumulator is the exponentially weighted average of the squared gradients of all updates;
with accumulators starting at zero only the weight `ρ ^ n` is missing. -/
theorem C162_average (ρ ε : ℝ) (lr g : ℕ → ℝ) (x ms : ℝ) (n : ℕ) : (rmsRun ρ ε lr g x ms n).2 =
    ρ ^ n * ms + ∑ i ∈ Finset.range n, (1 - ρ) * ρ ^ (n - 1 - i) * g i ^ 2 ∧
    ρ ^ n + ∑ i ∈ Finset.range n, (1 - ρ) * ρ ^ (n - 1 - i) = 1 := by
  induction n with
  | zero => simp [rmsRun]
  | succ n ih =>
    have e : ∀ i ∈ Finset.range n, ρ ^ (n - i) = ρ * ρ ^ (n - 1 - i) := by
      intro i hi
      have := Finset.mem_range.mp hi
      rw [← pow_succ', show n - 1 - i + 1 = n - i by omega]
    constructor
    · simp only [rmsRun, rmsAcc]
      rw [ih.1, Finset.sum_range_succ, Nat.add_sub_cancel, Nat.sub_self, pow_zero, mul_one, mul_add, ← mul_assoc, ← pow_succ',
        Finset.mul_sum, add_assoc]
      congr 2
      exact Finset.sum_congr rfl fun i hi => by rw [e i hi]; ring
    · rw [Finset.sum_range_succ, Nat.add_sub_cancel, Nat.sub_self, pow_zero, mul_one,
        Finset.sum_congr rfl (fun i hi => by rw [e i hi, show (1 - ρ) * (ρ * ρ ^ (n - 1 - i)) = ρ * ((1 - ρ) * ρ ^ (n - 1 - i)) by ring]),
        ← Finset.mul_sum, pow_succ]
      linear_combination ρ * ih.2

/-- **C162, dead biases**: the bias of the first dense layer of a head, whose output is normalised, keeps its first value
over a whole training, whatever the batches, masks, features and other variables in the steps. -/
theorem C162_deadBias (ρ ε : ℝ) (lr : ℕ → ℝ) (h : ℕ → NetHead) (c1 C : ℕ) (n : ℕ → ℕ) (hn : ∀ i, 0 < n i)
    (m1 m2 f G : ∀ i, Fin (n i) → ℕ → ℝ) (o : ℕ) (x ms : ℝ) (t : ℕ) :
    (rmsRun ρ ε lr (fun i => ((h i).backSmall c1 C (m1 i) (m2 i) (f i) (G i)).dense1.b o) x ms t).1 = x ∧
    (rmsRun ρ ε lr (fun i => ((h i).back40 c1 C (m1 i) (m2 i) (f i) (G i)).dense1.b o) x ms t).1 = x :=
  ⟨C162_still _ _ _ _ _ _ _ fun i _ => (C159_deadBias (h i) c1 C (hn i) (m1 i) (m2 i) (f i) (G i) o).1,
    C162_still _ _ _ _ _ _ _ fun i _ => (C159_deadBias (h i) c1 C (hn i) (m1 i) (m2 i) (f i) (G i) o).2⟩

theorem adamRun_const {β₁ β₂ : ℝ} (ε : ℝ) (lr : ℕ → ℝ) (g x : ℝ) (n : ℕ) :
    (adamRun β₁ β₂ ε lr (fun _ => g) x n).2 = ((1 - β₁ ^ n) * g, (1 - β₂ ^ n) * g ^ 2) := by
  induction n with
  | zero => simp [adamRun]
  | succ n ih =>
    simp only [adamRun, ih]
    ext <;> dsimp only <;> ring

/-- **C162, bias correction**: with a constant gradient every update of `Adam`, the first included, moves a number by the
learning rate against the sign of the gradient, up to `ε`. -/
theorem C162_adamConst {β₁ β₂ ε : ℝ} (h1 : 0 ≤ β₁) (h1' : β₁ < 1) (h2 : 0 ≤ β₂) (h2' : β₂ < 1) (hε : 0 < ε) (lr : ℕ → ℝ) (g x : ℝ) (n : ℕ) :
    (adamRun β₁ β₂ ε lr (fun _ => g) x (n + 1)).1 =
      (adamRun β₁ β₂ ε lr (fun _ => g) x n).1 - lr n * (g / (|g| + ε / √(1 - β₂ ^ (n + 1)))) := by
  have e := adamRun_const (β₁ := β₁) (β₂ := β₂) ε lr g x (n + 1)
  have hp1 : 0 < 1 - β₁ ^ (n + 1) := sub_pos.mpr (pow_lt_one₀ h1 h1' (by omega))
  have hp2 : 0 < 1 - β₂ ^ (n + 1) := sub_pos.mpr (pow_lt_one₀ h2 h2' (by omega))
  have hs := Real.sqrt_pos.mpr hp2
  have e1 : (adamRun β₁ β₂ ε lr (fun _ => g) x (n + 1)).1 = (adamRun β₁ β₂ ε lr (fun _ => g) x n).1 -
      lr n * (√(1 - β₂ ^ (n + 1)) / (1 - β₁ ^ (n + 1))) * (adamRun β₁ β₂ ε lr (fun _ => g) x (n + 1)).2.1 /
        (√(adamRun β₁ β₂ ε lr (fun _ => g) x (n + 1)).2.2 + ε) := rfl
  rw [e1, e]
  dsimp only
  rw [Real.sqrt_mul hp2.le, Real.sqrt_sq_eq_abs]
  have hd : |g| + ε / √(1 - β₂ ^ (n + 1)) ≠ 0 := (add_pos_of_nonneg_of_pos (abs_nonneg _) (div_pos hε hs)).ne'
  have hd2 : √(1 - β₂ ^ (n + 1)) * |g| + ε ≠ 0 := (add_pos_of_nonneg_of_pos (mul_nonneg hs.le (abs_nonneg _)) hε).ne'
  congr 1
  have e3 : √(1 - β₂ ^ (n + 1)) * |g| + ε = √(1 - β₂ ^ (n + 1)) * (|g| + ε / √(1 - β₂ ^ (n + 1))) := by
    rw [mul_add, mul_div_cancel₀ _ hs.ne']
  rw [e3]
  field_simp

theorem adam_sq {β₁ β₂ : ℝ} (h1 : 0 ≤ β₁) (h1' : β₁ < 1) (h2 : 0 < β₂) (h2' : β₂ < 1) (h12 : β₁ ^ 2 < β₂) (ε : ℝ) (lr g : ℕ → ℝ) (x : ℝ)
    (n : ℕ) : 0 ≤ (adamRun β₁ β₂ ε lr g x n).2.2 ∧
      (1 - β₂) * (1 - β₁ ^ 2 / β₂) * (adamRun β₁ β₂ ε lr g x n).2.1 ^ 2 ≤ (1 - β₁) ^ 2 * (adamRun β₁ β₂ ε lr g x n).2.2 := by
  induction n with
  | zero => simp [adamRun]
  | succ n ih =>
    obtain ⟨i1, i2⟩ := ih
    obtain ⟨m, hm⟩ : ∃ m, m = (adamRun β₁ β₂ ε lr g x n).2.1 := ⟨_, rfl⟩
    obtain ⟨v, hv⟩ : ∃ v, v = (adamRun β₁ β₂ ε lr g x n).2.2 := ⟨_, rfl⟩
    simp only [adamRun, ← hm, ← hv] at i1 i2 ⊢
    obtain ⟨q, hq⟩ : ∃ q, q = β₁ ^ 2 / β₂ := ⟨_, rfl⟩
    have hqb : β₁ ^ 2 = q * β₂ := by rw [hq]; field_simp
    have hq0 : 0 ≤ q := by rw [hq]; positivity
    have hq1 : q < 1 := by rw [hq, div_lt_one h2]; exact h12
    rw [← hq] at i2 ⊢
    have b2 : 0 < 1 - β₂ := by linarith
    have b1 : 0 < 1 - β₁ := by linarith
    have b3 : 0 < 1 - q := by linarith
    constructor
    · positivity
    · -- (1-β₂)(1-q)(β₁ m + (1-β₁) g)² ≤ (1-β₁)² (β₂ v + (1-β₂) g²)
      have e : (1 - β₁) ^ 2 * (β₂ * v + (1 - β₂) * g n ^ 2) - (1 - β₂) * (1 - q) * (β₁ * m + (1 - β₁) * g n) ^ 2 =
          β₂ * ((1 - β₁) ^ 2 * v - (1 - β₂) * (1 - q) * m ^ 2) +
          (1 - β₂) * (β₂ * (1 - q) * (1 - q) * m ^ 2 + q * (1 - β₁) ^ 2 * g n ^ 2 - 2 * (1 - q) * β₁ * (1 - β₁) * m * g n) +
          (1 - β₂) * (1 - q) * m ^ 2 * (q * β₂ - β₁ ^ 2) := by ring
      have e2 : β₂ * (β₂ * (1 - q) * (1 - q) * m ^ 2 + q * (1 - β₁) ^ 2 * g n ^ 2 - 2 * (1 - q) * β₁ * (1 - β₁) * m * g n) =
          (β₂ * (1 - q) * m - β₁ * (1 - β₁) * g n) ^ 2 + (1 - β₁) ^ 2 * g n ^ 2 * (q * β₂ - β₁ ^ 2) := by ring
      rw [hqb, sub_self, mul_zero, add_zero] at e2 e
      have e3 : 0 ≤ β₂ * (1 - q) * (1 - q) * m ^ 2 + q * (1 - β₁) ^ 2 * g n ^ 2 - 2 * (1 - q) * β₁ * (1 - β₁) * m * g n := by
        by_contra h
        have := mul_neg_of_pos_of_neg h2 (not_le.mp h)
        rw [e2] at this
        exact absurd this (not_lt.mpr (sq_nonneg _))
      have e4 : 0 ≤ β₂ * ((1 - β₁) ^ 2 * v - (1 - β₂) * (1 - q) * m ^ 2) := mul_nonneg h2.le (by linarith)
      have e5 := mul_nonneg b2.le e3
      linarith

/-- **C162, the tutorial**: an update of `Adam` moves no number by more than
`lr / √((1 - β₂) (1 - β₁² / β₂))`, whatever the gradients, now and before. -/
theorem C162_adam {β₁ β₂ ε : ℝ} (h1 : 0 ≤ β₁) (h1' : β₁ < 1) (h2 : 0 < β₂) (h2' : β₂ < 1) (h12 : β₁ ^ 2 < β₂) (hε : 0 < ε)
    (lr g : ℕ → ℝ) (x : ℝ) (n : ℕ) (hlr : 0 ≤ lr n) :
    |(adamRun β₁ β₂ ε lr g x (n + 1)).1 - (adamRun β₁ β₂ ε lr g x n).1| ≤ lr n / √((1 - β₂) * (1 - β₁ ^ 2 / β₂)) := by
  obtain ⟨i1, i2⟩ := adam_sq h1 h1' h2 h2' h12 ε lr g x (n + 1)
  obtain ⟨m, hm⟩ : ∃ m, m = (adamRun β₁ β₂ ε lr g x (n + 1)).2.1 := ⟨_, rfl⟩
  obtain ⟨v, hv⟩ : ∃ v, v = (adamRun β₁ β₂ ε lr g x (n + 1)).2.2 := ⟨_, rfl⟩
  have e : (adamRun β₁ β₂ ε lr g x (n + 1)).1 - (adamRun β₁ β₂ ε lr g x n).1 =
      -(lr n * (√(1 - β₂ ^ (n + 1)) / (1 - β₁ ^ (n + 1))) * m / (√v + ε)) := by
    rw [hm, hv]
    simp only [adamRun]
    ring
  rw [← hm, ← hv] at i2
  rw [← hv] at i1
  have b1 : 0 < 1 - β₁ := by linarith
  have hc : 0 < (1 - β₂) * (1 - β₁ ^ 2 / β₂) := mul_pos (by linarith) (by rw [sub_pos, div_lt_one h2]; exact h12)
  have hs := Real.sqrt_pos.mpr hc
  have hp1 : β₁ ^ (n + 1) ≤ β₁ := by
    have := pow_le_pow_of_le_one h1 h1'.le (show 1 ≤ n + 1 by omega)
    simpa using this
  have hp2 : √(1 - β₂ ^ (n + 1)) ≤ 1 := by
    apply Real.sqrt_le_one.mpr
    linarith [pow_pos h2 (n + 1)]
  have hmv : √((1 - β₂) * (1 - β₁ ^ 2 / β₂)) * |m| ≤ (1 - β₁) * √v := by
    rw [← Real.sqrt_sq_eq_abs, ← Real.sqrt_mul hc.le, ← Real.sqrt_sq b1.le, ← Real.sqrt_mul (sq_nonneg _)]
    exact Real.sqrt_le_sqrt i2
  have hd : 0 < √v + ε := add_pos_of_nonneg_of_pos (Real.sqrt_nonneg _) hε
  have hd1 : 0 < 1 - β₁ ^ (n + 1) := by linarith
  have hq : √(1 - β₂ ^ (n + 1)) / (1 - β₁ ^ (n + 1)) ≤ 1 / (1 - β₁) :=
    div_le_div₀ zero_le_one hp2 b1 (by linarith)
  have hq0 : 0 ≤ √(1 - β₂ ^ (n + 1)) / (1 - β₁ ^ (n + 1)) := div_nonneg (Real.sqrt_nonneg _) hd1.le
  rw [e, abs_neg, abs_div, abs_of_pos hd, abs_mul, abs_mul, abs_of_nonneg hlr, abs_of_nonneg hq0, div_le_div_iff₀ hd hs]
  calc lr n * (√(1 - β₂ ^ (n + 1)) / (1 - β₁ ^ (n + 1))) * |m| * √((1 - β₂) * (1 - β₁ ^ 2 / β₂))
      = (lr n * (√(1 - β₂ ^ (n + 1)) / (1 - β₁ ^ (n + 1)))) * (√((1 - β₂) * (1 - β₁ ^ 2 / β₂)) * |m|) := by ring
    _ ≤ (lr n * (1 / (1 - β₁))) * ((1 - β₁) * √v) :=
        mul_le_mul (mul_le_mul_of_nonneg_left hq hlr) hmv (by positivity) (by positivity)
    _ = lr n * √v := by field_simp
    _ ≤ lr n * (√v + ε) := mul_le_mul_of_nonneg_left (by linarith) hlr


/-! ### Directions against the gradient -/

/-- A sum of products of gradients and velocities that is not positive, and zero only if all gradients `l` are zero. -/
def Down (s : ℝ) (l : List ℝ) : Prop := s ≤ 0 ∧ (s = 0 → ∀ x ∈ l, x = 0)

theorem Down.zero : Down 0 [] := ⟨le_rfl, fun _ _ h => by simp at h⟩

theorem Down.add {s t : ℝ} {l m : List ℝ} (h1 : Down s l) (h2 : Down t m) : Down (s + t) (l ++ m) := by
  refine ⟨add_nonpos h1.1 h2.1, fun h x hx => ?_⟩
  have a1 := h1.1
  have a2 := h2.1
  rcases List.mem_append.mp hx with hx | hx
  · exact h1.2 (by linarith) x hx
  · exact h2.2 (by linarith) x hx

theorem Down.sum (n : ℕ) (s : ℕ → ℝ) (l : ℕ → List ℝ) (h : ∀ i < n, Down (s i) (l i)) :
    Down (∑ i ∈ Finset.range n, s i) ((List.range n).flatMap l) := by
  induction n with
  | zero => exact Down.zero
  | succ n ih =>
    rw [Finset.sum_range_succ, List.range_succ, List.flatMap_append]
    refine (ih fun i hi => h i (by omega)).add ?_
    simpa using h n (by omega)

theorem Down.one {ρ ε ms : ℝ} (h0 : 0 ≤ ρ) (h1 : ρ ≤ 1) (hε : 0 < ε) (g : ℝ) : Down (g * -rmsDir ρ ε ms g) [g] := by
  have hd : 0 < √(rmsAcc ρ ms g) + ε := add_pos_of_nonneg_of_pos (Real.sqrt_nonneg _) hε
  have e : g * -rmsDir ρ ε ms g = -(g ^ 2 / (√(rmsAcc ρ ms g) + ε)) := by
    unfold rmsDir
    ring
  rw [e]
  refine ⟨neg_nonpos.mpr (by positivity), fun h x hx => ?_⟩
  rw [neg_eq_zero, div_eq_zero_iff] at h
  rw [List.mem_singleton.mp hx]
  rcases h with h | h
  · exact pow_eq_zero_iff (two_ne_zero) |>.mp h
  · exact absurd h hd.ne'

theorem rmsVar_deriv (ρ ε ms g x : ℝ) : HasDerivAt (fun lr => rmsVar ρ ε lr ms g x) (-rmsDir ρ ε ms g) 0 := by
  unfold rmsVar
  have := ((hasDerivAt_id (0 : ℝ)).mul_const (rmsDir ρ ε ms g)).const_sub x
  simpa using this

theorem rmsVar_zero (ρ ε ms g x : ℝ) : rmsVar ρ ε 0 ms g x = x := by simp [rmsVar]

/-- A function with negative derivative decreases at first. -/
theorem lower_of_deriv {f : ℝ → ℝ} {s : ℝ} (h : HasDerivAt f s 0) (hs : s < 0) : ∀ᶠ η in 𝓝[>] (0 : ℝ), f η < f 0 := by
  have h1 := (hasDerivAt_iff_tendsto_slope.mp h).eventually (gt_mem_nhds hs)
  have h2 : ∀ᶠ η in 𝓝[>] (0 : ℝ), slope f 0 η < 0 := h1.filter_mono (nhdsWithin_mono _ fun x hx => ne_of_gt hx)
  filter_upwards [h2, self_mem_nhdsWithin] with η hη hpos
  have hpos : (0 : ℝ) < η := hpos
  rw [slope_def_field, sub_zero] at hη
  have := (div_lt_iff₀ hpos).mp hη
  linarith

/-- If all choices of values have a negative derivative, the values are smaller from some point on, whatever is chosen. -/
theorem lower_of_runs {R : ℝ → ℝ → Prop} (hex : ∀ η, ∃ y, R η y) {y₀ s : ℝ} (hs : s < 0)
    (h : ∀ f : ℝ → ℝ, f 0 = y₀ → (∀ η, η ≠ 0 → R η (f η)) → HasDerivAt f s 0) :
    ∃ δ > 0, ∀ η, 0 < η → η < δ → ∀ y, R η y → y < y₀ := by
  classical
  obtain ⟨f, hf⟩ : ∃ f : ℝ → ℝ, f 0 = y₀ ∧ ∀ η, η ≠ 0 → R η (f η) ∧ ((∃ y, R η y ∧ y₀ ≤ y) → y₀ ≤ f η) := by
    have : ∀ η : ℝ, ∃ y, (η = 0 → y = y₀) ∧ (η ≠ 0 → R η y ∧ ((∃ y, R η y ∧ y₀ ≤ y) → y₀ ≤ y)) := by
      intro η
      by_cases h0 : η = 0
      · exact ⟨y₀, fun _ => rfl, fun h => absurd h0 h⟩
      · by_cases hb : ∃ y, R η y ∧ y₀ ≤ y
        · obtain ⟨y, h1, h2⟩ := hb
          exact ⟨y, fun h => absurd h h0, fun _ => ⟨h1, fun _ => h2⟩⟩
        · obtain ⟨y, hy⟩ := hex η
          exact ⟨y, fun h => absurd h h0, fun _ => ⟨hy, fun h => absurd h hb⟩⟩
    choose f h1 h2 using this
    exact ⟨f, h1 0 rfl, h2⟩
  have hl := lower_of_deriv (h f hf.1 fun η hη => (hf.2 η hη).1) hs
  rw [eventually_nhdsWithin_iff, Metric.eventually_nhds_iff] at hl
  obtain ⟨δ, hδ, hl⟩ := hl
  refine ⟨δ, hδ, fun η h0 h1 y hy => ?_⟩
  by_contra hn
  have a := (hf.2 η h0.ne').2 ⟨y, hy, not_lt.mp hn⟩
  have b := hl (y := η) (by rw [Real.dist_eq, sub_zero, abs_of_pos h0]; exact h1) h0
  rw [hf.1] at b
  linarith

/-! ### The hypotheses can be met -/

/-- Two updates with the values of the scripts and gradients 3, -1. -/
example : |(rmsRun (9 / 10) (1 / 10 ^ 7) (fun _ => 1 / 1000) (fun i => if i = 0 then 3 else -1) 5 0 2).1 -
    (rmsRun (9 / 10) (1 / 10 ^ 7) (fun _ => 1 / 1000) (fun i => if i = 0 then 3 else -1) 5 0 1).1| ≤ 1 / 1000 / √(1 - 9 / 10) :=
  C162_step (by norm_num) (by norm_num) (by norm_num) _ _ 5 le_rfl 1 (by norm_num)

/-- The bound is attained up to `ε`: from a zero accumulator the first update has size `lr / (√(1 - ρ) + ε / |g|)`. -/
example : (rmsRun (3 / 4) 1 (fun _ => 1) (fun _ => 2) 5 0 1).1 = 4 := by
  have : √(rmsAcc (3 / 4) 0 2) = 1 := by rw [show rmsAcc (3 / 4) 0 2 = 1 by norm_num [rmsAcc], Real.sqrt_one]
  simp only [rmsRun, rmsVar, rmsDir, this]
  norm_num

/-- Ten epochs of 300 batches. -/
example (g : ℕ → ℝ) : |(rmsRun (9 / 10) (1 / 10 ^ 7) (learningRate (1 / 1000) (7 / 10) 300) g 1 0 3000).1 - 1| ≤ 22 / 100 * (300 : ℕ) :=
  (C162_scripts (by norm_num) g 1 3000).1

/-- The values of the tutorial. -/
example (g : ℕ → ℝ) : |(adamRun (9 / 10) (999 / 1000) (1 / 10 ^ 7) (fun _ => 1 / 1000) g 1 8).1 -
    (adamRun (9 / 10) (999 / 1000) (1 / 10 ^ 7) (fun _ => 1 / 1000) g 1 7).1| ≤ 1 / 1000 / √((1 - 999 / 1000) * (1 - (9 / 10) ^ 2 / (999 / 1000))) :=
  C162_adam (by norm_num) (by norm_num) (by norm_num) (by norm_num) (by norm_num) (by norm_num) _ g 1 7 (by norm_num)

end PC
