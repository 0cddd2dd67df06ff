import Verif.DivZero
import Verif.Props.Layers2

/-!
# C114: divisions in the layers

A division is safe if its result does not depend on what dividing by zero
returns.  `DivOk div`: `div` divides wherever the divisor is not zero, and may
return anything else.
-/

set_option linter.unusedVariables false
set_option linter.unusedSectionVars false

namespace PC

/-- Specification: a division that is only known for non-zero divisors (for
floats: infinities and NaN otherwise). -/
def DivOk {K : Type*} [Field K] (div : K → K → K) : Prop := ∀ a b, b ≠ 0 → div a b = a / b

section
variable {K : Type*} [Field K] [LinearOrder K] [IsStrictOrderedRing K] [FloorRing K] {k : ℕ}

/-- The density of a point of the cloud is positive: the point is its own
neighbour. -/
theorem density_pos (ker : K → K) (hker : ∀ x, 0 < ker x) {D : ℕ} (c : Cloud (Fin (D + 1) → K))
    {bw radius : K} (hbw : 0 < bw) (hr : 0 < radius) (p : Fin c.n) :
    0 < density ker c (fun _ => bw) (fun _ => radius) p := by
  unfold density
  apply div_pos
  · apply Finset.sum_pos
    · intro q _
      exact Finset.prod_pos (fun d _ => hker _)
    · refine ⟨p, ?_⟩
      simp only [Finset.mem_filter, Finset.mem_univ, true_and, sub_self]
      unfold normLt
      simp [hr]
  · exact Finset.prod_pos (fun _ _ => hbw)

theorem mcConvWith_eq {div : K → K → K} (hdiv : DivOk div) (act : K → K) (L : MCLayer K) (D : ℕ) {n m nf : ℕ}
    (pairs : List (Fin n × Fin m)) (input : Fin pairs.length → ℕ → K) (pdf : Fin pairs.length → K)
    (hp : ∀ j, pdf j ≠ 0) (f : Fin nf → ℕ → K) (c : Fin m) (o : ℕ) :
    L.convWith div act D pairs input pdf f c o = L.conv act D pairs input pdf f c o := by
  unfold MCLayer.convWith MCLayer.conv MCLayer.basis
  simp only [hdiv _ _ (hp _)]

/-- **C114, MCConv.** No division of the layer divides by zero: with any
division in place of `/`, the result is the same. -/
theorem C114_mcconv {div : K → K → K} (hdiv : DivOk div) (ker act : K → K) (hker : ∀ x, 0 < ker x) (dev : Device)
    (eps : K) (L : MCLayer K) (cin cout : Cloud (Fin (k + 2) → K)) (radius bw : K)
    (hok : LayerOk cin cout radius eps) (hbw : 0 < bw) (f : Fin cin.n → ℕ → K) :
    L.callWith div ker act dev eps cin cout radius bw f = L.call ker act dev eps cin cout radius bw f := by
  unfold MCLayer.callWith MCLayer.call
  cases hl : layerNbh dev eps cin cout radius with
  | error e => rfl
  | ok nh =>
    dsimp only
    cases hp : (nh.runGet ker dev none ⟨fun _ => bw, .constant, false⟩).1 with
    | error e => rfl
    | ok pdf =>
      dsimp only
      obtain ⟨nb, hnh, hf⟩ := layerNbh_eq hl
      have hpdf := layer_pdf hok nh hnh bw pdf hp
      subst hnh
      congr 1
      funext c o
      refine dite_congr rfl (fun hc => ?_) (fun _ => rfl)
      unfold MCLayer.callOn
      rw [mcConvWith_eq hdiv]
      · simp only [hdiv _ _ hok.radius_pos.ne']
      · intro j
        rw [hpdf]
        exact (density_pos ker hker cin hbw hok.radius_pos _).ne'

theorem pcConvWith_eq {div : K → K → K} (hdiv : DivOk div) (act : K → K) (L : PCLayer K) (D : ℕ) {n m nf : ℕ}
    (pairs : List (Fin n × Fin m)) (input : Fin pairs.length → ℕ → K) (pdf : Fin pairs.length → K)
    (hp : ∀ j, 0 < pdf j) (hT : ∀ x, 0 < x → x ≤ 1 → L.pdfTransform x ≠ 0)
    (f : Fin nf → ℕ → K) (c : Fin m) (o : ℕ) :
    L.convWith div act D pairs input pdf f c o = L.conv act D pairs input pdf f c o := by
  unfold PCLayer.convWith PCLayer.conv
  have hmax : ∀ j : Fin pairs.length,
      pdf j ≤ (segMax pdf (fun j => (pairs.get j).2.val) (pairs.get j).2.val).getD 0 := by
    intro j
    cases hs : segMax pdf (fun j => (pairs.get j).2.val) (pairs.get j).2.val with
    | none => exact absurd rfl (segMax_eq_none.1 hs j)
    | some v => exact (segMax_eq_some.1 hs).2 j rfl
  have hpos := fun j => (hp j).trans_le (hmax j)
  have e1 : ∀ j, div (pdf j) ((segMax pdf (fun j => (pairs.get j).2.val) (pairs.get j).2.val).getD 0) =
      pdf j / (segMax pdf (fun j => (pairs.get j).2.val) (pairs.get j).2.val).getD 0 :=
    fun j => hdiv _ _ (hpos j).ne'
  have e2 : ∀ a j, div a (L.pdfTransform
      (pdf j / (segMax pdf (fun j => (pairs.get j).2.val) (pairs.get j).2.val).getD 0)) = a / L.pdfTransform
      (pdf j / (segMax pdf (fun j => (pairs.get j).2.val) (pairs.get j).2.val).getD 0) :=
    fun a j => hdiv _ _ (hT _ (div_pos (hp j) (hpos j)) ((div_le_one (hpos j)).2 (hmax j)))
  simp only [e1, e2]

/-- **C114, PointConv.** The densities are divided by a positive maximum, so the
density network sees values in (0, 1].  Missing: the output of the network,
which the layer divides by, must be assumed to be non-zero on (0, 1]
(`C114_pointconv_false`). -/
theorem C114_pointconv_partial {div : K → K → K} (hdiv : DivOk div) (ker act : K → K) (hker : ∀ x, 0 < ker x)
    (dev : Device) (eps : K) (L : PCLayer K) (cin cout : Cloud (Fin (k + 2) → K)) (radius bw : K)
    (hok : LayerOk cin cout radius eps) (hbw : 0 < bw)
    (hT : ∀ x, 0 < x → x ≤ 1 → densityNet L.pw1 L.pb1 L.pw2 L.pb2 x ≠ 0) (f : Fin cin.n → ℕ → K) :
    L.callWith div ker act dev eps cin cout radius bw f = L.call ker act dev eps cin cout radius bw f := by
  unfold PCLayer.callWith PCLayer.call
  cases hl : layerNbh dev eps cin cout radius with
  | error e => rfl
  | ok nh =>
    dsimp only
    cases hp : (nh.runGet ker dev none ⟨fun _ => bw, .constant, false⟩).1 with
    | error e => rfl
    | ok pdf =>
      dsimp only
      obtain ⟨nb, hnh, hf⟩ := layerNbh_eq hl
      have hpdf := layer_pdf hok nh hnh bw pdf hp
      subst hnh
      congr 1
      funext c o
      refine dite_congr rfl (fun hc => ?_) (fun _ => rfl)
      unfold PCLayer.callOn
      rw [pcConvWith_eq hdiv]
      · intro j
        rw [hpdf]
        exact density_pos ker hker cin hbw hok.radius_pos _
      · exact hT

/-- With zero biases, which is how the layer is initialised
(PointConv.py:82-83, 123-141), the density network is linear: it is zero either
for all densities or for none. -/
theorem C114_fresh_network (w1 w2 : ℕ → K) {x : K} (hx : 0 < x) :
    densityNet w1 (fun _ => 0) w2 0 x = x * ∑ i ∈ Finset.range 16, max (w1 i) 0 * w2 i := by
  unfold densityNet
  rw [add_zero, Finset.mul_sum]
  refine Finset.sum_congr rfl (fun i _ => ?_)
  rw [add_zero, ← mul_assoc, mul_max_of_nonneg _ _ hx.le, mul_zero]

/-- **C114, a fresh PointConv layer** is safe if the weights of its density
network do not cancel. -/
theorem C114_pointconv_fresh_partial {div : K → K → K} (hdiv : DivOk div) (ker act : K → K) (hker : ∀ x, 0 < ker x)
    (dev : Device) (eps : K) (L : PCLayer K) (hb1 : L.pb1 = fun _ => 0) (hb2 : L.pb2 = 0)
    (hw : ∑ i ∈ Finset.range 16, max (L.pw1 i) 0 * L.pw2 i ≠ 0)
    (cin cout : Cloud (Fin (k + 2) → K)) (radius bw : K)
    (hok : LayerOk cin cout radius eps) (hbw : 0 < bw) (f : Fin cin.n → ℕ → K) :
    L.callWith div ker act dev eps cin cout radius bw f = L.call ker act dev eps cin cout radius bw f := by
  apply C114_pointconv_partial hdiv ker act hker dev eps L cin cout radius bw hok hbw
  intro x hx _
  rw [hb1, hb2, C114_fresh_network _ _ hx]
  exact mul_ne_zero hx.ne' hw

end

/-! ### A PointConv layer that divides by zero -/

/-- One point in the plane. -/
abbrev dzCloud : Cloud (Fin 2 → ℚ) := ⟨1, fun _ _ => 0, fun _ => 0, 1⟩

/-- A freshly initialised layer whose 16 weights of the first layer of the
density network happen to be negative. -/
abbrev dzLayer : PCLayer ℚ := ⟨1, 1, fun _ _ => 1, fun _ => 1, fun _ _ => 1, fun _ => -1, fun _ => 0, fun _ => 1, 0⟩

/-- **C114, negation for PointConv**: a freshly initialised layer (all biases of
the density network are zero) on one point divides by zero, and its output is
whatever that division returns. -/
theorem C114_pointconv_false :
    ¬ ∀ (div : ℚ → ℚ → ℚ) (_ : DivOk div) (ker act : ℚ → ℚ) (_ : ∀ x, 0 < ker x) (eps : ℚ) (L : PCLayer ℚ)
      (_ : L.pb1 = fun _ => 0) (_ : L.pb2 = 0)
      (cin cout : Cloud (Fin 2 → ℚ)) (radius bw : ℚ) (_ : LayerOk cin cout radius eps) (_ : 0 < bw)
      (f : Fin cin.n → ℕ → ℚ),
      L.callWith (k := 0) div ker act .gpu eps cin cout radius bw f =
        L.call (k := 0) ker act .gpu eps cin cout radius bw f := by
  intro h
  have := h (fun a b => if b = 0 then 7 else a / b) (fun a b hb => by simp [hb]) (fun _ => 1) (fun x => x)
    (fun _ => one_pos) (1/100) dzLayer rfl rfl dzCloud dzCloud 1 1
    ⟨by decide +kernel, one_pos, by norm_num⟩ one_pos (fun _ _ => 1)
  have h1 : (PCLayer.callWith (k := 0) (fun a b : ℚ => if b = 0 then 7 else a / b) (fun _ => 1) (fun x => x) .gpu
      (1/100) dzLayer dzCloud dzCloud 1 1 (fun _ _ => 1)).map (fun o => o 0 0) = .ok 7 := by decide +kernel
  have h2 : (PCLayer.call (k := 0) (fun _ => 1) (fun x : ℚ => x) .gpu
      (1/100) dzLayer dzCloud dzCloud 1 1 (fun _ _ => 1)).map (fun o => o 0 0) = .ok 0 := by decide +kernel
  rw [this, h2] at h1
  revert h1
  decide

/-- The hypotheses of the safe cases can be met: a fresh layer whose first
weights are positive. -/
example : (∑ i ∈ Finset.range 16, max ((fun _ => 1 : ℕ → ℚ) i) 0 * (fun i => (i : ℚ)) i) ≠ 0 := by
  decide +kernel

example : LayerOk dzCloud dzCloud (1 : ℚ) (1/100) := ⟨by decide +kernel, one_pos, by norm_num⟩

end PC
