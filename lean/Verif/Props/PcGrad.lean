import Verif.PcGrad
import Verif.Props.PoolGrad
import Verif.Props.MlpGrad

/-!
# Properties of the gradients of `PointConv` (C158)
-/

set_option linter.unusedVariables false
set_option linter.unusedSectionVars false

namespace PC

open Filter Topology

/-! ### The basis values -/

/-- The basis values of `PointConv` for rows `input` with densities `q` (specification): the kernel network divided by
the density network, whose argument is the density over the largest density of the same centre. -/
noncomputable def pcBasis (a : NonLin) (L : PCLayer ℝ) (D : ℕ) {P : ℕ} (seg : Fin P → ℕ) (input : Fin P → ℕ → ℝ)
    (q : Fin P → ℝ) (j : Fin P) (b : ℕ) : ℝ :=
  a.fwd (∑ i ∈ Finset.range D, input j i * L.axis i b + L.bias b) /
    densityNet L.pw1 L.pb1 L.pw2 L.pb2
      (q j / (Finset.univ.filter (fun i => seg i = seg j)).sup' ⟨j, by simp⟩ q)

/-- Gradients of the parameters times velocities. -/
noncomputable def pcPairing (D hid : ℕ) {P : ℕ} (g : PcGrads P) (V : PCLayer ℝ) : ℝ :=
  ∑ i ∈ Finset.range D, ∑ b ∈ Finset.range hid, g.axis i b * V.axis i b + ∑ b ∈ Finset.range hid, g.bias b * V.bias b +
  ∑ i ∈ Finset.range 16, (g.pw1 i * V.pw1 i + g.pb1 i * V.pb1 i + g.pw2 i * V.pw2 i) + g.pb2 * V.pb2

/-- The parameters of the two networks have the velocities `V` at `θ₀`. -/
def PcMoves (θ₀ : ℝ) (D hid : ℕ) (L : ℝ → PCLayer ℝ) (V : PCLayer ℝ) : Prop :=
  (∀ i < D, ∀ b < hid, HasDerivAt (fun θ => (L θ).axis i b) (V.axis i b) θ₀) ∧
  (∀ b < hid, HasDerivAt (fun θ => (L θ).bias b) (V.bias b) θ₀) ∧
  (∀ i < 16, HasDerivAt (fun θ => (L θ).pw1 i) (V.pw1 i) θ₀ ∧ HasDerivAt (fun θ => (L θ).pb1 i) (V.pb1 i) θ₀ ∧
    HasDerivAt (fun θ => (L θ).pw2 i) (V.pw2 i) θ₀) ∧
  HasDerivAt (fun θ => (L θ).pb2) V.pb2 θ₀

theorem segMax_sup {P : ℕ} (q : Fin P → ℝ) (seg : Fin P → ℕ) (j : Fin P) :
    (segMax q seg (seg j)).getD 0 = (Finset.univ.filter (fun i => seg i = seg j)).sup' ⟨j, by simp⟩ q := by
  rw [segMax_some q seg (seg j) ⟨j, mem_segRows.mpr rfl⟩]
  rfl

/-- The gradient of the segment maximum is linear in the upstream gradient. -/
theorem grad_max_linear {P : ℕ} (q : Fin P → ℝ) (seg : Fin P → ℕ) : ∃ w : Fin P → ℝ, ∀ (G : ℕ → ℝ) (i : Fin P),
    PoolOp.max.grad q seg G i = G (seg i) * w i := by
  refine ⟨fun i => if segMax q seg (seg i) = some (q i) then
      (((segRows seg (seg i)).filter (fun j => segMax q seg (seg j) = some (q j))).card : ℝ)⁻¹ else 0, fun G i => ?_⟩
  simp only [PoolOp.grad]
  split
  · rw [div_eq_mul_inv]
  · rw [mul_zero]

/-- The largest density of the centre of a row moves with the velocities of those that attain it; the gradients are the
coefficients. -/
theorem max_deriv {P : ℕ} (seg : Fin P → ℕ) (q : ℝ → Fin P → ℝ) (q' : Fin P → ℝ) (θ₀ : ℝ)
    (hq : ∀ j, HasDerivAt (fun θ => q θ j) (q' j) θ₀)
    (ht : ∀ i j, seg i = seg j → (∀ l, seg l = seg i → q θ₀ l ≤ q θ₀ i) → (∀ l, seg l = seg i → q θ₀ l ≤ q θ₀ j) → q' i = q' j) :
    ∃ v : ℕ → ℝ, (∀ j, HasDerivAt (fun θ => (segMax (q θ) seg (seg j)).getD 0) (v (seg j)) θ₀) ∧
      ∀ gm : Fin P → ℝ, ∑ j, gm j * v (seg j) =
        ∑ i, PoolOp.max.grad (q θ₀) seg (fun s => ∑ j, if seg j = s then gm j else 0) i * q' i := by
  obtain ⟨w, hw⟩ := grad_max_linear (q θ₀) seg
  refine ⟨fun s => ∑ i, PoolOp.max.grad (q θ₀) seg (fun s' => if s' = s then 1 else 0) i * q' i, fun j => ?_, fun gm => ?_⟩
  · obtain ⟨S, hS⟩ : ∃ S, ∀ i, seg i < S := ⟨Finset.univ.sup seg + 1, fun i =>
      Nat.lt_succ_of_le (Finset.le_sup (f := seg) (Finset.mem_univ i))⟩
    have := pool_deriv .max S 0 seg hS (fun s' => if s' = seg j then 1 else 0) q q' θ₀ hq
      (fun _ i i' h1 _ h3 h4 => ht i i' h1 h3 h4)
    refine this.congr_of_eventuallyEq (Eventually.of_forall fun θ => ?_)
    dsimp only
    unfold poolLoss
    rw [Finset.sum_eq_single (seg j)]
    · dsimp only; rw [if_pos rfl, one_mul]; rfl
    · intro s _ hne; dsimp only; rw [if_neg hne, zero_mul]
    · intro hn; exact absurd (Finset.mem_range.mpr (hS j)) hn
  · simp only [hw, Finset.mul_sum, Finset.sum_mul]
    rw [Finset.sum_comm]
    refine Finset.sum_congr rfl fun i _ => Finset.sum_congr rfl fun j _ => ?_
    by_cases h : seg j = seg i
    · rw [if_pos h, if_pos h.symm]; ring
    · rw [if_neg h, if_neg (Ne.symm h)]; ring

theorem relu_fwd (x : ℝ) : max x 0 = NonLin.relu.fwd x := rfl

/-- Derivative of one row. -/
theorem pc_row_deriv (a : NonLin) (D hid : ℕ) (θ₀ : ℝ) (L : ℝ → PCLayer ℝ) (V : PCLayer ℝ) (hV : PcMoves θ₀ D hid L V)
    (x : ℝ → ℕ → ℝ) (x' : ℕ → ℝ) (hx : ∀ i < D, HasDerivAt (fun θ => x θ i) (x' i) θ₀)
    (u : ℝ → ℝ) (u' : ℝ) (hu : HasDerivAt u u' θ₀)
    (hz : ∀ b < hid, a.SmoothAt (∑ i ∈ Finset.range D, x θ₀ i * (L θ₀).axis i b + (L θ₀).bias b))
    (hh : ∀ i < 16, u θ₀ * (L θ₀).pw1 i + (L θ₀).pb1 i ≠ 0) (ht : (L θ₀).pdfTransform (u θ₀) ≠ 0) (b : ℕ) (hb : b < hid) :
    HasDerivAt (fun θ => a.fwd (∑ i ∈ Finset.range D, x θ i * (L θ).axis i b + (L θ).bias b) / (L θ).pdfTransform (u θ))
      ((a.grad (∑ i ∈ Finset.range D, x θ₀ i * (L θ₀).axis i b + (L θ₀).bias b) *
          (∑ i ∈ Finset.range D, (x' i * (L θ₀).axis i b + x θ₀ i * V.axis i b) + V.bias b) * (L θ₀).pdfTransform (u θ₀) -
        a.fwd (∑ i ∈ Finset.range D, x θ₀ i * (L θ₀).axis i b + (L θ₀).bias b) *
          (∑ i ∈ Finset.range 16, (NonLin.relu.grad (u θ₀ * (L θ₀).pw1 i + (L θ₀).pb1 i) *
              (u' * (L θ₀).pw1 i + u θ₀ * V.pw1 i + V.pb1 i) * (L θ₀).pw2 i +
            max (u θ₀ * (L θ₀).pw1 i + (L θ₀).pb1 i) 0 * V.pw2 i) + V.pb2)) / (L θ₀).pdfTransform (u θ₀) ^ 2) θ₀ := by
  obtain ⟨v1, v2, v3, v4⟩ := hV
  refine HasDerivAt.div ?_ ?_ ht
  · refine HasDerivAt.comp θ₀ (a.deriv _ (hz b hb)) ?_
    refine HasDerivAt.add (HasDerivAt.fun_sum fun i hi => ?_) (v2 b hb)
    rw [Finset.mem_range] at hi
    exact (hx i hi).mul (v1 i hi b hb)
  · unfold PCLayer.pdfTransform
    refine HasDerivAt.add (HasDerivAt.fun_sum fun i hi => ?_) v4
    rw [Finset.mem_range] at hi
    obtain ⟨w1, w2, w3⟩ := v3 i hi
    refine HasDerivAt.mul (c := fun θ => max (u θ * (L θ).pw1 i + (L θ).pb1 i) 0) ?_ w3
    exact HasDerivAt.comp θ₀ (h₂ := NonLin.relu.fwd) (NonLin.relu.deriv _ (Or.inr (hh i hi))) ((hu.mul w1).add w2)

/-- The row's share of the gradients. -/
theorem pc_row_algebra (D hid : ℕ) (L V : PCLayer ℝ) (x x' : ℕ → ℝ) (u u' t q q' nm nm' : ℝ) (B A A' : ℕ → ℝ) (r R : ℕ → ℝ)
    (ht : t ≠ 0) (hnm : nm ≠ 0) (hu' : u' = (q' * nm - q * nm') / nm ^ 2) :
    ∑ b ∈ Finset.range hid, B b * ((A' b * (∑ i ∈ Finset.range D, (x' i * L.axis i b + x i * V.axis i b) + V.bias b) * t -
        A b * (∑ i ∈ Finset.range 16, (r i * (u' * L.pw1 i + u * V.pw1 i + V.pb1 i) * L.pw2 i + R i * V.pw2 i) + V.pb2)) / t ^ 2) =
      ∑ i ∈ Finset.range D, ∑ b ∈ Finset.range hid, x i * (B b / t * A' b) * V.axis i b +
      ∑ b ∈ Finset.range hid, B b / t * A' b * V.bias b +
      ∑ i ∈ Finset.range 16, (u * ((∑ b ∈ Finset.range hid, B b * (-A b / t / t)) * L.pw2 i * r i) * V.pw1 i +
        (∑ b ∈ Finset.range hid, B b * (-A b / t / t)) * L.pw2 i * r i * V.pb1 i +
        R i * (∑ b ∈ Finset.range hid, B b * (-A b / t / t)) * V.pw2 i) +
      (∑ b ∈ Finset.range hid, B b * (-A b / t / t)) * V.pb2 +
      ∑ i ∈ Finset.range D, (∑ b ∈ Finset.range hid, B b / t * A' b * L.axis i b) * x' i +
      ((∑ i ∈ Finset.range 16, (∑ b ∈ Finset.range hid, B b * (-A b / t / t)) * L.pw2 i * r i * L.pw1 i) / nm * q' +
       (∑ i ∈ Finset.range 16, (∑ b ∈ Finset.range hid, B b * (-A b / t / t)) * L.pw2 i * r i * L.pw1 i) * (-q / nm / nm) * nm') := by
  set gt := ∑ b ∈ Finset.range hid, B b * (-A b / t / t) with hgt
  have e0 : ∀ T : ℝ, ∑ b ∈ Finset.range hid, B b * ((A' b * (∑ i ∈ Finset.range D, (x' i * L.axis i b + x i * V.axis i b) + V.bias b) * t -
        A b * T) / t ^ 2) = ∑ b ∈ Finset.range hid, B b / t * A' b * (∑ i ∈ Finset.range D, (x' i * L.axis i b + x i * V.axis i b) + V.bias b) + gt * T := by
    intro T
    rw [hgt, Finset.sum_mul, ← Finset.sum_add_distrib]
    refine Finset.sum_congr rfl fun b _ => ?_
    field_simp
    ring
  rw [e0]
  clear_value gt
  have e1 : ∑ b ∈ Finset.range hid, B b / t * A' b * (∑ i ∈ Finset.range D, (x' i * L.axis i b + x i * V.axis i b) + V.bias b) =
      ∑ i ∈ Finset.range D, ∑ b ∈ Finset.range hid, x i * (B b / t * A' b) * V.axis i b +
      ∑ b ∈ Finset.range hid, B b / t * A' b * V.bias b +
      ∑ i ∈ Finset.range D, (∑ b ∈ Finset.range hid, B b / t * A' b * L.axis i b) * x' i := by
    simp only [Finset.sum_mul]
    rw [Finset.sum_comm (s := Finset.range D), Finset.sum_comm (s := Finset.range D), ← Finset.sum_add_distrib, ← Finset.sum_add_distrib]
    refine Finset.sum_congr rfl fun b _ => ?_
    rw [mul_add, Finset.mul_sum]
    have : ∑ i ∈ Finset.range D, B b / t * A' b * (x' i * L.axis i b + x i * V.axis i b) =
      ∑ i ∈ Finset.range D, x i * (B b / t * A' b) * V.axis i b + ∑ i ∈ Finset.range D, B b / t * A' b * L.axis i b * x' i := by
      rw [← Finset.sum_add_distrib]
      exact Finset.sum_congr rfl fun i _ => by ring
    rw [this]
    ring
  have e2 : gt * (∑ i ∈ Finset.range 16, (r i * (u' * L.pw1 i + u * V.pw1 i + V.pb1 i) * L.pw2 i + R i * V.pw2 i) + V.pb2) =
      ∑ i ∈ Finset.range 16, (u * (gt * L.pw2 i * r i) * V.pw1 i + gt * L.pw2 i * r i * V.pb1 i + R i * gt * V.pw2 i) +
      gt * V.pb2 + (∑ i ∈ Finset.range 16, gt * L.pw2 i * r i * L.pw1 i) * u' := by
    rw [mul_add, Finset.mul_sum, Finset.sum_mul]
    have : ∑ i ∈ Finset.range 16, gt * (r i * (u' * L.pw1 i + u * V.pw1 i + V.pb1 i) * L.pw2 i + R i * V.pw2 i) =
        ∑ i ∈ Finset.range 16, (u * (gt * L.pw2 i * r i) * V.pw1 i + gt * L.pw2 i * r i * V.pb1 i + R i * gt * V.pw2 i) +
        ∑ i ∈ Finset.range 16, gt * L.pw2 i * r i * L.pw1 i * u' := by
      rw [← Finset.sum_add_distrib]
      exact Finset.sum_congr rfl fun i _ => by ring
    rw [this]
    ring
  have e3 : ∀ gu : ℝ, gu * u' = gu / nm * q' + gu * (-q / nm / nm) * nm' := by
    intro gu
    rw [hu']
    field_simp
    ring
  rw [e1, e2, e3]
  ring

theorem pc_collect (D hid : ℕ) {P : ℕ} (α : Fin P → ℕ → ℕ → ℝ) (Va : ℕ → ℕ → ℝ) (β : Fin P → ℕ → ℝ) (Vb : ℕ → ℝ)
    (γ₁ : Fin P → ℕ → ℝ) (V₁ : ℕ → ℝ) (γ₂ : Fin P → ℕ → ℝ) (V₂ : ℕ → ℝ) (γ₃ : Fin P → ℕ → ℝ) (V₃ : ℕ → ℝ) (δ : Fin P → ℝ) (v : ℝ)
    (ε ζ : Fin P → ℝ) :
    ∑ j, (∑ i ∈ Finset.range D, ∑ b ∈ Finset.range hid, α j i b * Va i b + ∑ b ∈ Finset.range hid, β j b * Vb b +
        ∑ i ∈ Finset.range 16, (γ₁ j i * V₁ i + γ₂ j i * V₂ i + γ₃ j i * V₃ i) + δ j * v + ε j + ζ j) =
      ∑ i ∈ Finset.range D, ∑ b ∈ Finset.range hid, (∑ j, α j i b) * Va i b + ∑ b ∈ Finset.range hid, (∑ j, β j b) * Vb b +
        ∑ i ∈ Finset.range 16, ((∑ j, γ₁ j i) * V₁ i + (∑ j, γ₂ j i) * V₂ i + (∑ j, γ₃ j i) * V₃ i) + (∑ j, δ j) * v +
        ∑ j, ε j + ∑ j, ζ j := by
  simp only [Finset.sum_add_distrib, Finset.sum_mul]
  have e : ∀ (N : ℕ) (F : Fin P → ℕ → ℝ), ∑ j, ∑ i ∈ Finset.range N, F j i = ∑ i ∈ Finset.range N, ∑ j, F j i :=
    fun N F => Finset.sum_comm
  simp only [e]

/-- **C158, the basis values.** Parameters of both networks, kernel inputs and densities move along any curve; at `θ₀` no
activation function is at its kink, the density network does not vanish, the largest densities are not zero and move
together.  Then the weighted sum of the basis values has the derivative that the returned gradients predict. -/
theorem C158_basis_partial (a : NonLin) (D hid : ℕ) {P : ℕ} (θ₀ : ℝ) (L : ℝ → PCLayer ℝ) (V : PCLayer ℝ) (hL : (L θ₀).hid = hid)
    (hV : PcMoves θ₀ D hid L V) (seg : Fin P → ℕ) (input : ℝ → Fin P → ℕ → ℝ) (input' : Fin P → ℕ → ℝ)
    (hi : ∀ j, ∀ i < D, HasDerivAt (fun θ => input θ j i) (input' j i) θ₀) (q : ℝ → Fin P → ℝ) (q' : Fin P → ℝ)
    (hq : ∀ j, HasDerivAt (fun θ => q θ j) (q' j) θ₀)
    (hz : ∀ j, ∀ b < hid, a.SmoothAt (∑ i ∈ Finset.range D, input θ₀ j i * (L θ₀).axis i b + (L θ₀).bias b))
    (hmax : ∀ j, (Finset.univ.filter (fun i => seg i = seg j)).sup' ⟨j, by simp⟩ (q θ₀) ≠ 0)
    (hh : ∀ j, ∀ i < 16, q θ₀ j / (Finset.univ.filter (fun i => seg i = seg j)).sup' ⟨j, by simp⟩ (q θ₀) * (L θ₀).pw1 i +
      (L θ₀).pb1 i ≠ 0)
    (ht : ∀ j, densityNet (L θ₀).pw1 (L θ₀).pb1 (L θ₀).pw2 (L θ₀).pb2
      (q θ₀ j / (Finset.univ.filter (fun i => seg i = seg j)).sup' ⟨j, by simp⟩ (q θ₀)) ≠ 0)
    (hties : ∀ i j, seg i = seg j → (∀ l, seg l = seg i → q θ₀ l ≤ q θ₀ i) → (∀ l, seg l = seg i → q θ₀ l ≤ q θ₀ j) →
      q' i = q' j) (bG : ℕ → ℕ → ℝ) (g : PcGrads P) (hg : g = (L θ₀).basisBackward a D seg (input θ₀) (q θ₀) bG) :
    (∀ j, ∀ b < hid, DifferentiableAt ℝ (fun θ => pcBasis a (L θ) D seg (input θ) (q θ) j b) θ₀) ∧
    HasDerivAt (fun θ => ∑ j : Fin P, ∑ b ∈ Finset.range hid, bG j.val b * pcBasis a (L θ) D seg (input θ) (q θ) j b)
      (pcPairing D hid g V + ∑ j, ∑ i ∈ Finset.range D, g.input j i * input' j i + ∑ j, g.pdf j * q' j) θ₀ := by
  obtain ⟨v, hv, hpair⟩ := max_deriv seg q q' θ₀ hq hties
  have hB : ∀ θ j b, pcBasis a (L θ) D seg (input θ) (q θ) j b =
      a.fwd (∑ i ∈ Finset.range D, input θ j i * (L θ).axis i b + (L θ).bias b) /
        (L θ).pdfTransform (q θ j / (segMax (q θ) seg (seg j)).getD 0) := by
    intro θ j b
    rw [segMax_sup, pdfTransform_eq]
    rfl
  simp only [hB]
  simp only [← segMax_sup] at hmax hh ht
  simp only [← pdfTransform_eq] at ht
  have hu : ∀ j, HasDerivAt (fun θ => q θ j / (segMax (q θ) seg (seg j)).getD 0)
      ((q' j * (segMax (q θ₀) seg (seg j)).getD 0 - q θ₀ j * v (seg j)) / (segMax (q θ₀) seg (seg j)).getD 0 ^ 2) θ₀ :=
    fun j => (hq j).div (hv j) (hmax j)
  have hrow := fun (j : Fin P) (b : ℕ) (hb : b < hid) => pc_row_deriv a D hid θ₀ L V hV (fun θ => input θ j) (input' j) (hi j)
    (fun θ => q θ j / (segMax (q θ) seg (seg j)).getD 0) _ (hu j) (hz j) (hh j) (ht j) b hb
  refine ⟨fun j b hb => (hrow j b hb).differentiableAt, ?_⟩
  refine (HasDerivAt.fun_sum fun j _ => HasDerivAt.fun_sum fun b hb => (hrow j b (Finset.mem_range.mp hb)).const_mul _).congr_deriv ?_
  have halg := fun j : Fin P => pc_row_algebra D hid (L θ₀) V (input θ₀ j) (input' j)
    (q θ₀ j / (segMax (q θ₀) seg (seg j)).getD 0) _ ((L θ₀).pdfTransform (q θ₀ j / (segMax (q θ₀) seg (seg j)).getD 0))
    (q θ₀ j) (q' j) ((segMax (q θ₀) seg (seg j)).getD 0) (v (seg j)) (bG j.val)
    (fun b => a.fwd (∑ i ∈ Finset.range D, input θ₀ j i * (L θ₀).axis i b + (L θ₀).bias b))
    (fun b => a.grad (∑ i ∈ Finset.range D, input θ₀ j i * (L θ₀).axis i b + (L θ₀).bias b))
    (fun i => NonLin.relu.grad (q θ₀ j / (segMax (q θ₀) seg (seg j)).getD 0 * (L θ₀).pw1 i + (L θ₀).pb1 i))
    (fun i => max (q θ₀ j / (segMax (q θ₀) seg (seg j)).getD 0 * (L θ₀).pw1 i + (L θ₀).pb1 i) 0)
    (ht j) (hmax j) rfl
  refine (Finset.sum_congr rfl fun j _ => halg j).trans ?_
  refine (pc_collect D hid _ _ _ _ _ _ _ _ _ _ _ _ _ _).trans ?_
  have h2 : ∀ gu : Fin P → ℝ, ∑ j, (gu j / (segMax (q θ₀) seg (seg j)).getD 0 * q' j +
      gu j * (-q θ₀ j / (segMax (q θ₀) seg (seg j)).getD 0 / (segMax (q θ₀) seg (seg j)).getD 0) * v (seg j)) =
      ∑ j, (gu j / (segMax (q θ₀) seg (seg j)).getD 0 + PoolOp.max.grad (q θ₀) seg (fun s => ∑ j, if seg j = s then
        gu j * (-q θ₀ j / (segMax (q θ₀) seg (seg j)).getD 0 / (segMax (q θ₀) seg (seg j)).getD 0) else 0) j) * q' j := by
    intro gu
    rw [Finset.sum_add_distrib, hpair, ← Finset.sum_add_distrib]
    exact Finset.sum_congr rfl fun j _ => by ring
  rw [h2]
  subst hg hL
  rfl

/-! ### The whole layer -/

variable {k : ℕ}

/-- The basis values of the layer in terms of a list of pairs, with neighbourhoods that do not change near `θ₀`. -/
theorem pc_transfer (a : NonLin) (D hid : ℕ) {n m : ℕ} (ids : List (Fin n × Fin m)) (θ₀ : ℝ) (L : ℝ → PCLayer ℝ)
    (V : PCLayer ℝ) (hL : (L θ₀).hid = hid) (hV : PcMoves θ₀ D hid L V) (N : ℝ → Fin m → Finset (Fin n))
    (hN : ∀ᶠ θ in 𝓝 θ₀, ∀ c, N θ c = N θ₀ c) (hN₀ : ∀ c, Finset.univ.filter (fun p => (p, c) ∈ ids) = N θ₀ c)
    (u : ℝ → Fin n → Fin m → ℕ → ℝ) (u' : Fin n → Fin m → ℕ → ℝ)
    (hu : ∀ p c, ∀ i < D, HasDerivAt (fun θ => u θ p c i) (u' p c i) θ₀) (ρ : ℝ → Fin n → ℝ) (δ : Fin n → ℝ)
    (hρ : ∀ p, HasDerivAt (fun θ => ρ θ p) (δ p) θ₀) (hpos : ∀ p, 0 < ρ θ₀ p)
    (hz : ∀ p c, p ∈ N θ₀ c → ∀ b < hid, a.SmoothAt (∑ i ∈ Finset.range D, u θ₀ p c i * (L θ₀).axis i b + (L θ₀).bias b))
    (hh : ∀ p c, p ∈ N θ₀ c → ∀ i < 16, ρ θ₀ p / maxOver (N θ₀ c) (ρ θ₀) * (L θ₀).pw1 i + (L θ₀).pb1 i ≠ 0)
    (ht : ∀ p c, p ∈ N θ₀ c → densityNet (L θ₀).pw1 (L θ₀).pb1 (L θ₀).pw2 (L θ₀).pb2 (ρ θ₀ p / maxOver (N θ₀ c) (ρ θ₀)) ≠ 0)
    (hties : ∀ c, ∀ p ∈ N θ₀ c, ∀ p' ∈ N θ₀ c, (∀ l ∈ N θ₀ c, ρ θ₀ l ≤ ρ θ₀ p) → (∀ l ∈ N θ₀ c, ρ θ₀ l ≤ ρ θ₀ p') → δ p = δ p')
    (bG : ℕ → ℕ → ℝ) (g : PcGrads ids.length)
    (hg : g = (L θ₀).basisBackward a D (fun i => (ids.get i).2.val) (fun j => u θ₀ (ids.get j).1 (ids.get j).2)
      (fun j => ρ θ₀ (ids.get j).1) bG) :
    ∃ A' : Fin n → Fin m → ℕ → ℝ,
      (∀ p c, (p, c) ∈ ids → ∀ b < hid, HasDerivAt (fun θ => a.fwd (∑ i ∈ Finset.range D, u θ p c i * (L θ).axis i b +
        (L θ).bias b) / densityNet (L θ).pw1 (L θ).pb1 (L θ).pw2 (L θ).pb2 (ρ θ p / maxOver (N θ c) (ρ θ))) (A' p c b) θ₀) ∧
      ∑ j : Fin ids.length, ∑ b ∈ Finset.range hid, bG j.val b * A' (ids.get j).1 (ids.get j).2 b =
        pcPairing D hid g V + ∑ j, ∑ i ∈ Finset.range D, g.input j i * u' (ids.get j).1 (ids.get j).2 i +
          ∑ j, g.pdf j * δ (ids.get j).1 := by
  have hmem : ∀ j : Fin ids.length, (ids.get j).1 ∈ N θ₀ (ids.get j).2 := fun j => by
    rw [← hN₀, Finset.mem_filter]
    exact ⟨Finset.mem_univ _, List.get_mem _ j⟩
  have hsup : ∀ (θ : ℝ) (j : Fin ids.length), (Finset.univ.filter (fun i : Fin ids.length => (ids.get i).2.val = (ids.get j).2.val)).sup'
      ⟨j, by simp⟩ (fun j => ρ θ (ids.get j).1) = maxOver (N θ₀ (ids.get j).2) (ρ θ) := by
    intro θ j
    rw [← hN₀, ← segMax_pairs ids (ρ θ) (ids.get j).2]
    exact (segMax_sup (fun j : Fin ids.length => ρ θ (ids.get j).1) (fun j => (ids.get j).2.val) j).symm
  have hin : ∀ (c : Fin m) (l : Fin n), l ∈ N θ₀ c → ∃ j : Fin ids.length, ids.get j = (l, c) := by
    intro c l hl
    rw [← hN₀, Finset.mem_filter] at hl
    exact List.mem_iff_get.mp hl.2
  have hbig : ∀ j : Fin ids.length, 0 < maxOver (N θ₀ (ids.get j).2) (ρ θ₀) := by
    intro j
    rw [← hsup θ₀ j]
    exact lt_of_lt_of_le (hpos (ids.get j).1) (Finset.le_sup' (fun j : Fin ids.length => ρ θ₀ (ids.get j).1) (by simp))
  obtain ⟨hd, hsum⟩ := C158_basis_partial a D hid θ₀ L V hL hV (fun i : Fin ids.length => (ids.get i).2.val)
    (fun θ j => u θ (ids.get j).1 (ids.get j).2) (fun j => u' (ids.get j).1 (ids.get j).2) (fun j i hi => hu _ _ i hi)
    (fun θ j => ρ θ (ids.get j).1) (fun j => δ (ids.get j).1) (fun j => hρ _) (fun j b hb => hz _ _ (hmem j) b hb)
    (fun j => by rw [hsup]; exact (hbig j).ne') (fun j i hi => by rw [hsup]; exact hh _ _ (hmem j) i hi)
    (fun j => by rw [hsup]; exact ht _ _ (hmem j))
    (by
      intro i j hij hi hj
      have hc : (ids.get i).2 = (ids.get j).2 := Fin.ext hij
      have hmj := hmem j
      rw [← hc] at hmj
      refine hties (ids.get i).2 _ (hmem i) _ hmj ?_ ?_
      · intro l hl
        obtain ⟨j', hj'⟩ := hin _ l hl
        have := hi j' (by rw [hj'])
        rwa [hj'] at this
      · intro l hl
        obtain ⟨j', hj'⟩ := hin _ l hl
        have := hj j' (by rw [hj'])
        rwa [hj'] at this) bG g hg
  have hB : ∀ᶠ θ in 𝓝 θ₀, ∀ (j : Fin ids.length) (b : ℕ), a.fwd (∑ i ∈ Finset.range D, u θ (ids.get j).1 (ids.get j).2 i *
      (L θ).axis i b + (L θ).bias b) / densityNet (L θ).pw1 (L θ).pb1 (L θ).pw2 (L θ).pb2
        (ρ θ (ids.get j).1 / maxOver (N θ (ids.get j).2) (ρ θ)) =
      pcBasis a (L θ) D (fun i : Fin ids.length => (ids.get i).2.val) (fun j => u θ (ids.get j).1 (ids.get j).2)
        (fun j => ρ θ (ids.get j).1) j b := by
    filter_upwards [hN] with θ hθ j b
    unfold pcBasis
    rw [hsup, hθ]
  have hdiff : ∀ p c, (p, c) ∈ ids → ∀ b < hid, DifferentiableAt ℝ (fun θ => a.fwd (∑ i ∈ Finset.range D, u θ p c i * (L θ).axis i b +
        (L θ).bias b) / densityNet (L θ).pw1 (L θ).pb1 (L θ).pw2 (L θ).pb2 (ρ θ p / maxOver (N θ c) (ρ θ))) θ₀ := by
    intro p c hpc b hb
    obtain ⟨j, hj⟩ := List.mem_iff_get.mp hpc
    refine (hd j b hb).congr_of_eventuallyEq ?_
    filter_upwards [hB] with θ hθ
    have := hθ j b
    rw [hj] at this
    exact this
  refine ⟨fun p c b => deriv (fun θ => a.fwd (∑ i ∈ Finset.range D, u θ p c i * (L θ).axis i b +
        (L θ).bias b) / densityNet (L θ).pw1 (L θ).pb1 (L θ).pw2 (L θ).pb2 (ρ θ p / maxOver (N θ c) (ρ θ))) θ₀,
    fun p c hpc b hb => (hdiff p c hpc b hb).hasDerivAt, ?_⟩
  refine HasDerivAt.unique (𝕜 := ℝ) ?_ hsum
  refine (HasDerivAt.fun_sum fun j _ => HasDerivAt.fun_sum fun b hb =>
    ((hdiff (ids.get j).1 (ids.get j).2 (List.get_mem _ j) b (Finset.mem_range.mp hb)).hasDerivAt).const_mul
      (bG j.val b)).congr_of_eventuallyEq ?_
  filter_upwards [hB] with θ hθ
  exact Finset.sum_congr rfl fun j _ => Finset.sum_congr rfl fun b _ => by rw [hθ j b]

/-- Gradients of the densities of the pairs, gathered for the sorted points. -/
theorem gather_pairing {n m : ℕ} (pairs : List (Fin n × Fin m)) (π : Equiv.Perm (Fin n)) (ids : List (Fin n × Fin m))
    (hids : ids = pairs.map (fun p => (π p.1, p.2))) (h : ℕ → ℝ) (δ : Fin n → ℝ) :
    ∑ i : Fin n, gatherPdfGrad pairs h i.val * δ (π i) = ∑ j : Fin ids.length, h j.val * δ (ids.get j).1 := by
  rw [sum_map_get pairs (fun p => (π p.1, p.2)) ids hids (fun j p => h j * δ p.1)]
  unfold gatherPdfGrad
  simp only [Finset.sum_mul]
  rw [Finset.sum_comm]
  refine Finset.sum_congr rfl fun j _ => ?_
  have e : ∀ i : Fin n, ((pairs.get j).1.val = i.val) = ((pairs.get j).1 = i) := fun i => propext Fin.ext_iff.symm
  simp only [e, ite_mul, zero_mul, Finset.sum_ite_eq, Finset.mem_univ, if_true]

/-- **C158, the layer.** Points of both clouds, features and all parameters move along any curve; at `θ₀` no two points of a
batch element are exactly one radius apart (unless they do not move relative to each other), no activation function is at its kink, the density network does not vanish,
and points of one neighbourhood with the largest density keep a common density.  Then for every run of the training step
at `θ₀` and every run of the layer elsewhere the loss is differentiable at `θ₀`, and its derivative is the sum of all
returned gradients times the velocities. -/
theorem C158_pointconv_partial (a : NonLin) (Ws : ℕ) (eps radius bw : ℝ) (hr : 0 < radius) (hbw : 0 < bw) (hW : 0 < Ws)
    (n m : ℕ) (hn : 0 < n) (hm : 0 < m) (hone : n ≤ 512 + Ws * 64) (hone' : m ≤ 512 + Ws * 64) (hk : k ≤ 1)
    (bi : Fin n → ℕ) (bo : Fin m → ℕ) (Bi Bo ci co hid : ℕ)
    (hb : opBasisOk hid = true) (hf : opFeaturesOk ci = true)
    (θ₀ : ℝ) (x : ℝ → Fin n → Fin (k + 2) → ℝ) (y : ℝ → Fin m → Fin (k + 2) → ℝ) (f : ℝ → Fin n → ℕ → ℝ)
    (L : ℝ → PCLayer ℝ) (hL : ∀ θ, (L θ).cin = ci ∧ (L θ).hid = hid)
    (hin : ∀ p q, bi p = bi q → OffRadius θ₀ radius fun θ d => x θ p d - x θ q d)
    (hout : ∀ p c, bi p = bo c → OffRadius θ₀ radius fun θ d => x θ p d - y θ c d)
    (x' : Fin n → Fin (k + 2) → ℝ) (y' : Fin m → Fin (k + 2) → ℝ) (f' : Fin n → ℕ → ℝ) (V : PCLayer ℝ)
    (hx : ∀ p d, HasDerivAt (fun θ => x θ p d) (x' p d) θ₀) (hy : ∀ c d, HasDerivAt (fun θ => y θ c d) (y' c d) θ₀)
    (hfe : ∀ p, ∀ ch < ci, HasDerivAt (fun θ => f θ p ch) (f' p ch) θ₀)
    (hV : PcMoves θ₀ (k + 2) hid L V)
    (hw : ∀ t < ci * hid, ∀ o < co, HasDerivAt (fun θ => (L θ).weights t o) (V.weights t o) θ₀)
    (ρ : ℝ → Fin n → ℝ) (hρ : ∀ θ p, ρ θ p = density cuGauss ⟨n, x θ, bi, Bi⟩ (fun _ => bw) (fun _ => radius) p)
    (N : Fin m → Finset (Fin n)) (hN : ∀ c, N c = nbrs ⟨n, x θ₀, bi, Bi⟩ ⟨m, y θ₀, bo, Bo⟩ radius c)
    (hz : ∀ p c, p ∈ N c → ∀ b < hid, a.SmoothAt (∑ i ∈ Finset.range (k + 2), rowOf (fun d => x θ₀ p d - y θ₀ c d) i *
      (L θ₀).axis i b + (L θ₀).bias b))
    (hh : ∀ p c, p ∈ N c → ∀ i < 16, ρ θ₀ p / maxOver (N c) (ρ θ₀) * (L θ₀).pw1 i + (L θ₀).pb1 i ≠ 0)
    (ht : ∀ p c, p ∈ N c → densityNet (L θ₀).pw1 (L θ₀).pb1 (L θ₀).pw2 (L θ₀).pb2 (ρ θ₀ p / maxOver (N c) (ρ θ₀)) ≠ 0)
    (hties : ∀ c, ∀ p ∈ N c, ∀ p' ∈ N c, (∀ l ∈ N c, ρ θ₀ l ≤ ρ θ₀ p) → (∀ l ∈ N c, ρ θ₀ l ≤ ρ θ₀ p') →
      deriv (fun θ => ρ θ p) θ₀ = deriv (fun θ => ρ θ p') θ₀)
    (out : ℝ → Fin m → ℕ → ℝ)
    (hcall : ∀ θ, (L θ).GpuCall a.fwd Ws eps ⟨n, x θ, bi, Bi⟩ ⟨m, y θ, bo, Bo⟩ radius bw (f θ) (out θ))
    (G : Fin m → ℕ → ℝ) (ids : List (Fin n × Fin m)) (g : PcGrads ids.length) (xG : Fin n → Fin (k + 2) → ℝ)
    (yG : Fin m → Fin (k + 2) → ℝ) (fG : Fin n → ℕ → ℝ) (wG : ℕ → ℕ → ℝ)
    (hback : (L θ₀).GpuTrain a Ws eps co ⟨n, x θ₀, bi, Bi⟩ ⟨m, y θ₀, bo, Bo⟩ radius bw (f θ₀) G ids g xG yG fG wG) :
    HasDerivAt (fun θ => ∑ c, ∑ o ∈ Finset.range co, G c o * out θ c o)
      (pcPairing (k + 2) hid g V + ∑ p, ∑ d, xG p d * x' p d + ∑ c, ∑ d, yG c d * y' c d +
        ∑ p, ∑ ch ∈ Finset.range ci, fG p ch * f' p ch +
        ∑ t ∈ Finset.range (ci * hid), ∑ o ∈ Finset.range co, wG t o * V.weights t o) θ₀ := by
  obtain ⟨nb, self, B, W, B', W', pdfPts, wf, bG, ptG, gIn, q, input, basis, b1, hids, b3, hB, hW', hB', hW'', b4, hq, hinp, hbas,
    b5, b6, hwG, hg, b7, b8, hxG⟩ := hback
  obtain ⟨l1, l2⟩ := hL θ₀
  have hpdf0 : GpuPdf Ws (⟨⟨n, x θ₀, bi, Bi⟩, fun _ => radius, eps⟩ : Grid (k + 2) ℝ) (fun _ => radius) (fun _ => bw) nb
      (nb.pairs.map (fun p => pdfPts p.1.val)) := ⟨self, B, W, pdfPts, hB, hW', b3, b4, rfl⟩
  obtain ⟨δ, hδ, hδG⟩ := density_curve Ws n bi Bi x θ₀ x' hx radius eps bw hr hW hn hone (Or.inl hk) hin self b3
  obtain ⟨g1, g2, g3⟩ := gpuIds_spec Ws ⟨n, x θ₀, bi, Bi⟩ ⟨m, y θ₀, bo, Bo⟩ radius eps hr hW hm hone' nb b1
  have hpdf := gpuPdf_spec Ws ⟨n, x θ₀, bi, Bi⟩ radius eps bw hr hW hn hone (Or.inl hk) nb _ hpdf0
  have hback : (L θ₀).GpuBackward a.fwd Ws eps co ⟨n, x θ₀, bi, Bi⟩ ⟨m, y θ₀, bo, Bo⟩ radius bw (f θ₀) G ids bG fG wG := by
    subst hq hinp hbas
    exact ⟨nb, _, wf, b1, hids, hpdf0, b5, b6, hwG⟩
  have hq' : q = fun j => ρ θ₀ (ids.get j).1 := by
    subst hids hq
    funext j
    rw [hρ]
    exact hpdf j
  have g3' : ∀ c, Finset.univ.filter (fun p => (p, c) ∈ ids) = N c := fun c => by rw [hN, hids]; exact g3 c
  have hδ' : ∀ p, HasDerivAt (fun θ => ρ θ p) (δ p) θ₀ := fun p => by simp only [hρ]; exact hδ p
  obtain ⟨A', hA, hsum⟩ := pc_transfer a (k + 2) hid ids θ₀ L V l2 hV
    (fun θ c => nbrs ⟨n, x θ, bi, Bi⟩ ⟨m, y θ, bo, Bo⟩ radius c)
    (eventually_nbrs n m bi bo Bi Bo x y θ₀ radius (fun p d => (hx p d).continuousAt) (fun c d => (hy c d).continuousAt) hout)
    (fun c => (g3' c).trans (hN c)) (fun θ p c => rowOf (fun d => x θ p d - y θ c d)) (fun p c => rowOf (fun d => x' p d - y' c d))
    (by
      intro p c i hi
      have e : ∀ u : Fin (k + 2) → ℝ, rowOf u i = u ⟨i, hi⟩ := fun u => by unfold rowOf gatherD; rw [dif_pos hi]
      simp only [e]
      exact (hx p _).sub (hy c _)) ρ δ hδ'
    (fun p => by
      rw [hρ]
      exact density_cuGauss_pos (D := k + 1) (⟨n, x θ₀, bi, Bi⟩ : Cloud (Fin (k + 2) → ℝ)) bw radius hbw hr p)
    (by simpa only [hN] using hz) (by simpa only [hN] using hh) (by simpa only [hN] using ht)
    (by
      intro c p hp p' hp' h1 h2
      have := hties c p (by rw [hN]; exact hp) p' (by rw [hN]; exact hp') (by rw [hN]; exact h1) (by rw [hN]; exact h2)
      rwa [(hδ' p).deriv, (hδ' p').deriv] at this)
    bG g (by rw [hg, hq', hinp])
  have h109 := C109_pointconv_partial a.fwd Ws eps radius bw hr hW n m hn hm hone hone' hk bi bo Bi Bo ci co hid hb hf θ₀ x y f L hL
    hout f' A' V.weights (fun p d => (hx p d).continuousAt) (fun c d => (hy c d).continuousAt) hfe
    (by
      intro p c hpc hlt b hbb
      have hmem : (p, c) ∈ ids := by
        have : p ∈ N c := by
          rw [hN, mem_nbrs]
          exact ⟨hpc, hr, by simpa [sq] using hlt⟩
        rw [← g3', Finset.mem_filter] at this
        exact this.2
      have := hA p c hmem b hbb
      simpa only [funext (hρ _)] using this) hw out hcall G ids bG fG wG hback
  refine h109.congr_deriv ?_
  rw [hsum]
  have h1 := input_pairing ids 1 1 (fun _ => g.input) g.input (fun j d => by simp) x' y' gIn yG b8
  simp only [Finset.range_one, Finset.sum_singleton, div_one] at h1
  rw [h1]
  have h2 : ∑ j, g.pdf j * δ (ids.get j).1 = ∑ p, ∑ d, ptG (((cuPerm (⟨⟨n, x θ₀, bi, Bi⟩, fun _ => radius, eps⟩ : Grid (k + 2) ℝ)).symm p).val, d) * x' p d := by
    have h3 := hδG B' W' _ ptG hB' hW'' b7
    have h4 := gather_pairing nb.pairs (cuPerm (⟨⟨n, x θ₀, bi, Bi⟩, fun _ => radius, eps⟩ : Grid (k + 2) ℝ)) ids hids
      (fun j => if h : j < ids.length then g.pdf ⟨j, h⟩ else 0) δ
    have h5 : ∑ j, g.pdf j * δ (ids.get j).1 = ∑ j : Fin ids.length,
        (fun j => if h : j < ids.length then g.pdf ⟨j, h⟩ else 0) j.val * δ (ids.get j).1 :=
      Finset.sum_congr rfl fun j _ => by dsimp only; rw [dif_pos j.isLt]
    rw [h5, ← h4, h3]
    rw [← Equiv.sum_comp (cuPerm (⟨⟨n, x θ₀, bi, Bi⟩, fun _ => radius, eps⟩ : Grid (k + 2) ℝ)) (fun p => ∑ d, ptG
      (((cuPerm (⟨⟨n, x θ₀, bi, Bi⟩, fun _ => radius, eps⟩ : Grid (k + 2) ℝ)).symm p).val, d) * x' p d)]
    simp only [Equiv.symm_apply_apply]
  rw [h2, hxG]
  simp only [add_mul, Finset.sum_add_distrib]
  ring

/-- There are runs of the training step. -/
theorem C158_runs (a : NonLin) (Ws : ℕ) (eps : ℝ) (L : PCLayer ℝ) (co : ℕ) (cin cout : Cloud (Fin (k + 2) → ℝ))
    (radius bw : ℝ) (hr : 0 < radius) (hW : 0 < Ws) (hin : 0 < cin.n) (hn : 0 < cout.n)
    (hone : cin.n ≤ 512 + Ws * 64) (hone' : cout.n ≤ 512 + Ws * 64) (f : Fin cin.n → ℕ → ℝ) (G : Fin cout.n → ℕ → ℝ) :
    ∃ ids g xG yG fG wG, L.GpuTrain a Ws eps co cin cout radius bw f G ids g xG yG fG wG := by
  obtain ⟨nb, h1⟩ := gpuFind_exists Ws (⟨cin, fun _ => radius, eps⟩ : Grid (k + 2) ℝ) cout (fun _ => radius)
    (fun _ => hr) (fun _ => le_rfl) hW hn hone'
  obtain ⟨self, h2⟩ := gpuFind_exists Ws (⟨cin, fun _ => radius, eps⟩ : Grid (k + 2) ℝ)
    (⟨cin, fun _ => radius, eps⟩ : Grid (k + 2) ℝ).cuSorted (fun _ => radius) (fun _ => hr) (fun _ => le_rfl) hW hin hone
  obtain ⟨pdfPts, h3⟩ := exists_pdfFwd (pdfArgs (⟨cin, fun _ => radius, eps⟩ : Grid (k + 2) ℝ).cuSorted.pts self.pairs
    (fun i => self.ranges.getD i 0) (fun _ => bw) (fun _ => radius)) KDEMode.constant.value 1 1
  obtain ⟨ids, hids⟩ : ∃ ids, ids = gpuIds (⟨cin, fun _ => radius, eps⟩ : Grid (k + 2) ℝ) nb := ⟨_, rfl⟩
  obtain ⟨q, hq⟩ : ∃ q : Fin ids.length → ℝ, q = fun j => (nb.pairs.map (fun p => pdfPts p.1.val)).getD j.val 0 := ⟨_, rfl⟩
  obtain ⟨input, hinput⟩ : ∃ input : Fin ids.length → ℕ → ℝ, input = fun j => rowOf (fun d => cin.pts (ids.get j).1 d -
    cout.pts (ids.get j).2 d) := ⟨_, rfl⟩
  obtain ⟨basis, hbasis⟩ : ∃ basis : Fin ids.length → ℕ → ℝ, basis = fun j b => a.fwd (∑ i ∈ Finset.range (k + 2), input j i *
      L.axis i b + L.bias b) / L.pdfTransform (q j / (segMax q (fun i => (ids.get i).2.val) (ids.get j).2.val).getD 0) := ⟨_, rfl⟩
  obtain ⟨wf, h4⟩ := gpuProj_exists ids nb.ranges L.cin L.hid basis f
  obtain ⟨bG, fG, h5⟩ := gpuProjGrad_exists ids nb.ranges L.cin L.hid basis f (L.gradWf co G)
  obtain ⟨g, hg⟩ : ∃ g, g = L.basisBackward a (k + 2) (fun i : Fin ids.length => (ids.get i).2.val) input q bG := ⟨_, rfl⟩
  obtain ⟨ptG, h6⟩ := exists_pdfGrad (pdfArgs (⟨cin, fun _ => radius, eps⟩ : Grid (k + 2) ℝ).cuSorted.pts self.pairs
    (fun i => self.ranges.getD i 0) (fun _ => bw) (fun _ => radius)) KDEMode.constant.value 1 1
    (gatherPdfGrad nb.pairs (fun j => if h : j < ids.length then g.pdf ⟨j, h⟩ else 0))
  exact ⟨ids, g, _, _, fG, _, nb, self, 1, 1, 1, 1, pdfPts, wf, bG, ptG, _, q, input, basis, h1, hids, h2, one_pos, one_pos,
    one_pos, one_pos, h3, hq, hinput, hbasis, h4, h5, rfl, hg, h6, rfl, rfl⟩

/-- **C158, densities matter only relative to each other**: multiplying the densities of one neighbourhood by a common
factor does not change the basis values, and accordingly, also at ties and kinks, the gradients of the densities of every
neighbourhood are orthogonal to the densities. -/
theorem C158_scale (a : NonLin) (L : PCLayer ℝ) (D : ℕ) {P : ℕ} (seg : Fin P → ℕ) (input : Fin P → ℕ → ℝ) (q : Fin P → ℝ)
    (bG : ℕ → ℕ → ℝ) (s : ℕ) (hpos : ∀ j, seg j = s → 0 < q j) :
    ∑ j ∈ Finset.univ.filter (fun j => seg j = s), (L.basisBackward a D seg input q bG).pdf j * q j = 0 := by
  by_cases hne : (segRows seg s).Nonempty
  swap
  · exact Finset.sum_eq_zero fun j hj => absurd ⟨j, mem_segRows.mpr (Finset.mem_filter.mp hj).2⟩ hne
  have hM : ∃ M, 0 < M ∧ segMax q seg s = some M := by
    rw [segMax_some q seg s hne]
    obtain ⟨i, hi⟩ := hne
    exact ⟨_, lt_of_lt_of_le (hpos i (mem_segRows.mp hi)) (Finset.le_sup' q hi), rfl⟩
  obtain ⟨M, hM0, hM⟩ := hM
  obtain ⟨gu, hgu⟩ : ∃ gu : Fin P → ℝ, ∀ j, (L.basisBackward a D seg input q bG).pdf j =
      gu j / (segMax q seg (seg j)).getD 0 + PoolOp.max.grad q seg (fun s => ∑ j, if seg j = s then
        gu j * (-q j / (segMax q seg (seg j)).getD 0 / (segMax q seg (seg j)).getD 0) else 0) j := ⟨_, fun j => rfl⟩
  simp only [hgu, add_mul, Finset.sum_add_distrib]
  have h1 := grad_max_pairing q seg (fun s => ∑ j, if seg j = s then
        gu j * (-q j / (segMax q seg (seg j)).getD 0 / (segMax q seg (seg j)).getD 0) else 0) q s
  have h2 : (∑ i ∈ (segRows seg s).filter (fun j => segMax q seg (seg j) = some (q j)), q i) /
        (((segRows seg s).filter (fun j => segMax q seg (seg j) = some (q j))).card : ℝ) = M := by
    have hact : ∀ i ∈ (segRows seg s).filter (fun j => segMax q seg (seg j) = some (q j)), q i = M := by
      intro i hi
      obtain ⟨a1, a2⟩ := Finset.mem_filter.mp hi
      rw [mem_segRows.mp a1, hM] at a2
      exact (Option.some.inj a2).symm
    rw [Finset.sum_congr rfl hact, Finset.sum_const, nsmul_eq_mul]
    have : (((segRows seg s).filter (fun j => segMax q seg (seg j) = some (q j))).card : ℝ) ≠ 0 := by
      exact_mod_cast (Finset.card_pos.mpr (active_nonempty q seg s hne)).ne'
    field_simp
  rw [h2] at h1
  have h3 : ∑ j ∈ Finset.univ.filter (fun j => seg j = s), PoolOp.max.grad q seg (fun s => ∑ j, if seg j = s then
        gu j * (-q j / (segMax q seg (seg j)).getD 0 / (segMax q seg (seg j)).getD 0) else 0) j * q j = _ := h1
  rw [h3]
  rw [← Finset.sum_filter, Finset.sum_mul, ← Finset.sum_add_distrib]
  refine Finset.sum_eq_zero fun j hj => ?_
  rw [(Finset.mem_filter.mp hj).2, hM, Option.getD_some]
  field_simp
  ring

/-- The counterexample: constant networks, `net(u) = u` for `u ≥ 0`. -/
noncomputable abbrev exPcTie : PCLayer ℝ := ⟨1, 1, fun _ _ => 0, fun _ => 1, fun _ _ => 1, fun _ => 1, fun _ => 0, fun _ => 1 / 16, 0⟩

/-- **C158 fails at ties**: two neighbours with equal densities, one of which grows; all other conditions of
`C158_basis_partial` are met. -/
theorem C158_ties_false : ¬ ∀ (L : PCLayer ℝ) (q : ℝ → Fin 2 → ℝ) (q' : Fin 2 → ℝ) (bG : ℕ → ℕ → ℝ),
    (∀ θ j, -1 < θ → 0 < q θ j) → (∀ j, HasDerivAt (fun θ => q θ j) (q' j) 0) →
    (∀ (u : ℝ), 0 < u → densityNet L.pw1 L.pb1 L.pw2 L.pb2 u ≠ 0 ∧ ∀ i < 16, u * L.pw1 i + L.pb1 i ≠ 0) →
    DifferentiableAt ℝ (fun θ => ∑ j : Fin 2, ∑ b ∈ Finset.range 1,
      bG j.val b * pcBasis .elu L 2 (fun _ => 0) (fun _ _ => 0) (q θ) j b) 0 := by
  intro H
  have hnet : ∀ u : ℝ, 0 ≤ u → densityNet exPcTie.pw1 exPcTie.pb1 exPcTie.pw2 exPcTie.pb2 u = u := by
    intro u hu
    simp only [densityNet, mul_one, add_zero, max_eq_left hu, Finset.sum_const, Finset.card_range, nsmul_eq_mul]
    push_cast
    ring
  have hd := H exPcTie (fun θ j => if j = 0 then 1 + θ else 1) (fun j => if j = 0 then 1 else 0)
    (fun j _ => if j = 1 then 1 else 0)
    (fun θ j hθ => by split <;> linarith)
    (fun j => by
      by_cases hj : j = 0
      · simp only [hj, if_true]; exact (hasDerivAt_id (0 : ℝ)).const_add 1
      · simp only [if_neg hj]; exact hasDerivAt_const _ _)
    (fun u hu => ⟨by rw [hnet u hu.le]; exact hu.ne', fun i _ => by simpa using hu.ne'⟩)
  have e : ∀ θ : ℝ, ∑ j : Fin 2, ∑ b ∈ Finset.range 1, (if j.val = 1 then (1 : ℝ) else 0) *
      pcBasis .elu exPcTie 2 (fun _ => 0) (fun _ _ => 0) (fun j => if j = 0 then 1 + θ else 1) j b = max θ 0 + 1 := by
    intro θ
    rw [Fin.sum_univ_two]
    simp only [Finset.sum_range_one]
    have h0 : ((0 : Fin 2).val = 1) = False := by simp
    have h1 : ((1 : Fin 2).val = 1) = True := by simp
    simp only [h0, h1, if_false, if_true, zero_mul, zero_add, one_mul]
    have hsup : (Finset.univ.filter (fun i : Fin 2 => (0 : ℕ) = 0)).sup' ⟨1, by simp⟩ (fun j : Fin 2 => if j = 0 then 1 + θ else 1) =
        max θ 0 + 1 := by
      refine le_antisymm (Finset.sup'_le _ _ fun j _ => ?_) ?_
      · split
        · linarith [le_max_left θ 0]
        · linarith [le_max_right θ 0]
      · rcases le_total θ 0 with h | h
        · rw [max_eq_right h, zero_add]
          exact Finset.le_sup'_of_le (fun j : Fin 2 => if j = 0 then 1 + θ else 1) (b := 1) (by simp) (by simp)
        · rw [max_eq_left h, add_comm]
          exact Finset.le_sup'_of_le (fun j : Fin 2 => if j = 0 then 1 + θ else 1) (b := 0) (by simp) (by simp)
    have hp : 0 < max θ 0 + 1 := by linarith [le_max_right θ 0]
    unfold pcBasis
    rw [hsup, hnet _ (by simp; positivity)]
    simp [NonLin.fwd]
  have hd' : DifferentiableAt ℝ (fun θ : ℝ => max θ 0) 0 := by
    have := hd.sub_const 1
    refine this.congr_of_eventuallyEq (Eventually.of_forall fun θ => ?_)
    dsimp only
    rw [e θ]
    ring
  have h1 := hd'.hasDerivAt
  have hr : HasDerivWithinAt (fun θ : ℝ => max θ 0) 1 (Set.Ici 0) 0 :=
    (hasDerivAt_id (0 : ℝ)).hasDerivWithinAt.congr (fun t ht => max_eq_left ht) (by simp)
  have hl : HasDerivWithinAt (fun θ : ℝ => max θ 0) 0 (Set.Iic 0) 0 :=
    (hasDerivAt_const (0 : ℝ) (0 : ℝ)).hasDerivWithinAt.congr (fun t ht => max_eq_right ht) (by simp)
  have e1 := (uniqueDiffWithinAt_Ici (0 : ℝ)).eq_deriv _ h1.hasDerivWithinAt hr
  have e2 := (uniqueDiffWithinAt_Iic (0 : ℝ)).eq_deriv _ h1.hasDerivWithinAt hl
  rw [e1] at e2
  norm_num at e2

/-- The conditions of `C158_pointconv_partial` can be met: a moving point near a centre, moving weights; and there are
runs. -/
example (G : Fin 1 → ℕ → ℝ) : ∃ (out : ℝ → Fin 1 → ℕ → ℝ) (D : ℝ),
    (∀ θ, (⟨8, 8, fun _ _ => 1 + θ, fun _ => 1, fun _ _ => 1 + 2 * θ, fun _ => 1 + θ, fun _ => 1, fun _ => 1, θ⟩ : PCLayer ℝ).GpuCall
      NonLin.leaky.fwd 1 (1 / 100) (⟨1, fun _ _ => θ + 1 / 4, fun _ => 0, 1⟩ : Cloud (Fin 3 → ℝ)) ⟨1, fun _ _ => 0, fun _ => 0, 1⟩ 1 (1 / 4)
      (fun _ ch => ch + θ) (out θ)) ∧
    HasDerivAt (fun θ => ∑ c, ∑ o ∈ Finset.range 4, G c o * out θ c o) D 0 := by
  obtain ⟨L, hL⟩ : ∃ L : ℝ → PCLayer ℝ, ∀ θ, L θ = ⟨8, 8, fun _ _ => 1 + θ, fun _ => 1, fun _ _ => 1 + 2 * θ, fun _ => 1 + θ,
    fun _ => 1, fun _ => 1, θ⟩ := ⟨_, fun _ => rfl⟩
  simp only [← hL]
  have hc : ∀ θ, ∃ out : Fin 1 → ℕ → ℝ, (L θ).GpuCall NonLin.leaky.fwd 1 (1 / 100)
      (⟨1, fun _ _ => θ + 1 / 4, fun _ => 0, 1⟩ : Cloud (Fin 3 → ℝ)) ⟨1, fun _ _ => 0, fun _ => 0, 1⟩ 1 (1 / 4) (fun _ ch => ch + θ) out := fun θ =>
    C108_pointconv_runs (k := 1) NonLin.leaky.fwd 1 (1 / 100) (L θ) (⟨1, fun _ _ => θ + 1 / 4, fun _ => 0, 1⟩ : Cloud (Fin 3 → ℝ))
      ⟨1, fun _ _ => 0, fun _ => 0, 1⟩ 1 (1 / 4) one_pos one_pos (by norm_num) (by norm_num) (by norm_num) (by norm_num) _
  choose out hout using hc
  obtain ⟨ids, g, xG, yG, fG, wG, hb⟩ := C158_runs (k := 1) .leaky 1 (1 / 100) (L 0) 4
    (⟨1, fun _ _ => 0 + 1 / 4, fun _ => 0, 1⟩ : Cloud (Fin 3 → ℝ)) ⟨1, fun _ _ => 0, fun _ => 0, 1⟩ 1 (1 / 4) one_pos one_pos
    (by norm_num) (by norm_num) (by norm_num) (by norm_num) (fun _ ch => ch + 0) G
  have hl : ∀ c : ℝ, HasDerivAt (fun θ : ℝ => c + θ) 1 0 := fun c => (hasDerivAt_id (0 : ℝ)).const_add c
  have hmax : ∀ (s : Finset (Fin 1)) (r : Fin 1 → ℝ), 0 < r 0 → 0 ∈ s → r 0 / maxOver s r = 1 := by
    intro s r hr hs
    have hs' : s = {0} := by
      ext i; rw [Subsingleton.elim i 0]; simpa using hs
    subst hs'
    unfold maxOver
    rw [dif_pos (Finset.singleton_nonempty 0), Finset.sup'_singleton, div_self hr.ne']
  have hρ0 : 0 < density cuGauss (⟨1, fun _ _ => 0 + 1 / 4, fun _ => 0, 1⟩ : Cloud (Fin 3 → ℝ)) (fun _ => 1 / 4) (fun _ => 1) (0 : Fin 1) :=
    density_cuGauss_pos (D := 2) _ (1 / 4) 1 (by norm_num) one_pos 0
  refine ⟨out, _, hout, C158_pointconv_partial (k := 1) .leaky 1 (1 / 100) 1 (1 / 4) one_pos (by norm_num) one_pos 1 1
    (by norm_num) (by norm_num) (by norm_num) (by norm_num) le_rfl (fun _ => 0) (fun _ => 0) 1 1 8 4 8 (by decide) (by decide) 0
    (fun θ _ _ => θ + 1 / 4) (fun _ _ _ => 0) (fun θ _ ch => ch + θ) L (fun θ => by rw [hL]; exact ⟨rfl, rfl⟩) (fun p q _ => Or.inr (by simp))
    (fun p c _ => Or.inr (by norm_num [Fin.sum_univ_three])) (fun _ _ => 1) (fun _ _ => 0) (fun _ _ => 1)
    ⟨8, 8, fun _ _ => 1, fun _ => 0, fun _ _ => 2, fun _ => 1, fun _ => 0, fun _ => 0, 1⟩
    (fun _ _ => (hasDerivAt_id (0 : ℝ)).add_const _) (fun _ _ => hasDerivAt_const _ _) (fun _ ch _ => hl ch)
    ⟨fun _ _ _ _ => by simp only [hL]; exact hl 1, fun _ _ => by simp only [hL]; exact hasDerivAt_const _ _,
      fun _ _ => ⟨by simp only [hL]; exact hl 1, by simp only [hL]; exact hasDerivAt_const _ _, by simp only [hL]; exact hasDerivAt_const _ _⟩,
      by simp only [hL]; exact hasDerivAt_id 0⟩
    (fun _ _ _ _ => by
      simp only [hL]
      simpa using ((hasDerivAt_id (0 : ℝ)).const_mul 2).const_add 1)
    _ (fun _ _ => rfl) _ (fun _ => rfl) (fun p c _ b _ => Or.inr ?_) (fun p c hp i _ => ?_) (fun p c hp => ?_)
    (fun c p _ p' _ _ _ => by rw [Subsingleton.elim p p']) out hout G ids g xG yG fG wG hb⟩
  · simp only [hL, Finset.sum_range_succ, Finset.sum_range_zero, rowOf, gatherD]
    norm_num
  · rw [Subsingleton.elim p 0] at hp ⊢
    rw [hmax _ _ hρ0 hp, hL]
    norm_num
  · rw [Subsingleton.elim p 0] at hp ⊢
    rw [hmax _ _ hρ0 hp, hL]
    simp only [densityNet]
    norm_num

end PC
