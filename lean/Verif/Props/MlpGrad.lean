import Verif.MlpGrad
import Verif.Props.Activation
import Verif.Props.GpuGrad

/-!
# Properties of the gradients of the kernel MLPs (C156)
-/

set_option linter.unusedVariables false
set_option linter.unusedSectionVars false

namespace PC

open Set Filter

/-! ### The activation functions -/

theorem NonLin.fwd_eq (a : NonLin) : ∃ A : Act, (a = .elu ↔ A = .elu) ∧ A ≠ .exp ∧ (∀ x, a.fwd x = A.forward x) ∧
    ∀ x, a.grad x = A.backward (A.forward x) := by
  cases a with
  | relu =>
    exact ⟨.relu, by simp, by simp, fun x => rfl, fun x => rfl⟩
  | leaky =>
    have hf : ∀ x, NonLin.leaky.fwd x = Act.leaky.forward x := by
      intro x
      simp only [NonLin.fwd, Act.forward]
      split
      · next h => exact max_eq_right (by linarith)
      · next h => push Not at h; rw [max_eq_left (by linarith)]; ring
    refine ⟨.leaky, by simp, by simp, hf, fun x => ?_⟩
    rw [C147_rectified .leaky (Or.inr rfl)]
    rfl
  | elu =>
    have hf : ∀ x, NonLin.elu.fwd x = Act.elu.forward x := by
      intro x
      simp only [NonLin.fwd, Act.forward]
      rcases lt_trichotomy x 0 with h | h | h
      · rw [if_pos h, if_pos h.le, one_mul]
      · subst h; simp
      · rw [if_neg (not_lt.mpr h.le), if_neg (not_le.mpr h)]
    refine ⟨.elu, by simp, by simp, hf, fun x => ?_⟩
    simp only [NonLin.grad, hf, Act.backward]
    rcases lt_trichotomy (Act.elu.forward x) 0 with h | h | h
    · rw [if_pos h, if_pos h.le, add_comm]
    · rw [h]; simp
    · rw [if_neg (not_lt.mpr h.le), if_neg (not_le.mpr h)]

/-- The activation function is differentiable at `z`. -/
def NonLin.SmoothAt (a : NonLin) (z : ℝ) : Prop := a = .elu ∨ z ≠ 0

theorem NonLin.deriv (a : NonLin) (z : ℝ) (h : a.SmoothAt z) : HasDerivAt a.fwd (a.grad z) z := by
  obtain ⟨A, he, _, h1, h2⟩ := a.fwd_eq
  rw [h2, funext h1]
  rcases h with h | h
  · exact C147_smooth A (Or.inl (he.1 h)) z
  · exact (C147_derivative A z).1 h

theorem NonLin.deriv_left (a : NonLin) (z : ℝ) : HasDerivWithinAt a.fwd (a.grad z) (Iic z) z := by
  obtain ⟨A, he, _, h1, h2⟩ := a.fwd_eq
  rw [h2, funext h1]
  exact (C147_derivative A z).2

/-! ### Moving layers -/

/-- A layer whose weights and biases are functions of `θ`, with velocities. -/
structure MlpCurve where
  size : ℕ
  w : ℝ → ℕ → ℕ → ℕ → ℝ
  b : ℝ → ℕ → ℕ → ℝ
  w' : ℕ → ℕ → ℕ → ℝ
  b' : ℕ → ℕ → ℝ

/-- The layer at `θ`. -/
def MlpCurve.at (c : MlpCurve) (θ : ℝ) : MlpLayer ℝ := ⟨c.size, c.w θ, c.b θ⟩

/-- The weights and biases of the MLPs below `ml` have the given velocities at `θ₀`. -/
def MlpMoves (θ₀ : ℝ) (ml : ℕ) : ℕ → List MlpCurve → Prop
  | _, [] => True
  | prev, c :: cs =>
    (∀ mi < ml, ∀ i < prev, ∀ o < c.size, HasDerivAt (fun θ => c.w θ mi i o) (c.w' mi i o) θ₀) ∧
    (∀ mi < ml, ∀ o < c.size, HasDerivAt (fun θ => c.b θ mi o) (c.b' mi o) θ₀) ∧ MlpMoves θ₀ ml c.size cs

/-- No activation function is evaluated where it has a kink (always so for `elu`). -/
def MlpSmooth (a : NonLin) (ml : ℕ) {P : ℕ} : ℕ → List (MlpLayer ℝ) → (ℕ → Fin P → ℕ → ℝ) → Prop
  | _, [], _ => True
  | prev, l :: ls, x =>
    (∀ mi < ml, ∀ j, ∀ o < l.size, a.SmoothAt (∑ i ∈ Finset.range prev, x mi j i * l.w mi i o + l.b mi o)) ∧
    MlpSmooth a ml l.size ls (fun mi j o => a.fwd (∑ i ∈ Finset.range prev, x mi j i * l.w mi i o + l.b mi o))

/-- Gradients times velocities, summed over all weights and biases. -/
def mlpPairing (ml : ℕ) : ℕ → List MlpCurve → List (MlpLayer ℝ) → ℝ
  | prev, c :: cs, g :: gs =>
    ∑ mi ∈ Finset.range ml, (∑ i ∈ Finset.range prev, ∑ o ∈ Finset.range c.size, g.w mi i o * c.w' mi i o +
      ∑ o ∈ Finset.range c.size, g.b mi o * c.b' mi o) + mlpPairing ml c.size cs gs
  | _, _, _ => 0

/-- Size of the last layer. -/
def curveOut : ℕ → List MlpCurve → ℕ
  | prev, [] => prev
  | _, c :: cs => curveOut c.size cs

/-- **C156, the MLPs alone**: along every motion of weights, biases and inputs, where no activation function is at a
kink, the weighted sum of the outputs has the derivative that the returned gradients predict. -/
theorem C156_mlp_partial (a : NonLin) (θ₀ : ℝ) (ml : ℕ) {P : ℕ} (G : ℕ → Fin P → ℕ → ℝ) :
    ∀ (cs : List MlpCurve) (prev : ℕ) (x : ℝ → ℕ → Fin P → ℕ → ℝ) (x' : ℕ → Fin P → ℕ → ℝ),
    MlpMoves θ₀ ml prev cs → (∀ mi < ml, ∀ j, ∀ i < prev, HasDerivAt (fun θ => x θ mi j i) (x' mi j i) θ₀) →
    MlpSmooth a ml prev (cs.map (fun c => c.at θ₀)) (x θ₀) →
    HasDerivAt (fun θ => ∑ mi ∈ Finset.range ml, ∑ j, ∑ h ∈ Finset.range (curveOut prev cs),
        G mi j h * mlpEval a.fwd mi prev (cs.map (fun c => c.at θ)) (x θ mi j) h)
      (mlpPairing ml prev cs (mlpGrad a prev (cs.map (fun c => c.at θ₀)) (x θ₀) G).1 +
        ∑ mi ∈ Finset.range ml, ∑ j, ∑ i ∈ Finset.range prev,
          (mlpGrad a prev (cs.map (fun c => c.at θ₀)) (x θ₀) G).2 mi j i * x' mi j i) θ₀ := by
  intro cs
  induction cs with
  | nil =>
    intro prev x x' _ hx _
    simp only [List.map_nil, mlpGrad, mlpPairing, zero_add, curveOut, mlpEval]
    refine HasDerivAt.fun_sum fun mi hmi => HasDerivAt.fun_sum fun j _ => HasDerivAt.fun_sum fun i hi => ?_
    exact (hx mi (Finset.mem_range.mp hmi) j i (Finset.mem_range.mp hi)).const_mul _
  | cons c cs ih =>
    intro prev x x' hm hx hs
    obtain ⟨hw, hb, hm⟩ := hm
    obtain ⟨hs, hs'⟩ := hs
    have hz : ∀ mi < ml, ∀ j, ∀ o < c.size, HasDerivAt
        (fun θ => ∑ i ∈ Finset.range prev, x θ mi j i * (c.at θ).w mi i o + (c.at θ).b mi o)
        (∑ i ∈ Finset.range prev, (x' mi j i * c.w θ₀ mi i o + x θ₀ mi j i * c.w' mi i o) + c.b' mi o) θ₀ := by
      intro mi hmi j o ho
      refine HasDerivAt.add (HasDerivAt.fun_sum fun i hi => ?_) (hb mi hmi o ho)
      exact (hx mi hmi j i (Finset.mem_range.mp hi)).mul (hw mi hmi i (Finset.mem_range.mp hi) o ho)
    have hy : ∀ mi < ml, ∀ j, ∀ o < c.size, HasDerivAt
        (fun θ => a.fwd (∑ i ∈ Finset.range prev, x θ mi j i * (c.at θ).w mi i o + (c.at θ).b mi o))
        (a.grad (∑ i ∈ Finset.range prev, x θ₀ mi j i * c.w θ₀ mi i o + c.b θ₀ mi o) *
          (∑ i ∈ Finset.range prev, (x' mi j i * c.w θ₀ mi i o + x θ₀ mi j i * c.w' mi i o) + c.b' mi o)) θ₀ := by
      intro mi hmi j o ho
      have := (a.deriv _ (hs mi hmi j o ho)).comp θ₀ (hz mi hmi j o ho)
      exact this
    have h := ih c.size (fun θ mi j o => a.fwd (∑ i ∈ Finset.range prev, x θ mi j i * (c.at θ).w mi i o + (c.at θ).b mi o))
      _ hm hy hs'
    refine h.congr_deriv ?_
    simp only [List.map_cons, mlpGrad, mlpPairing]
    set R := mlpGrad a c.size (List.map (fun c => c.at θ₀) cs)
      (fun mi j o => a.fwd (∑ i ∈ Finset.range prev, x θ₀ mi j i * (c.at θ₀).w mi i o + (c.at θ₀).b mi o)) G with hR
    have hR' : mlpGrad a (c.at θ₀).size (List.map (fun c => c.at θ₀) cs)
      (fun mi j o => a.fwd (∑ i ∈ Finset.range prev, x θ₀ mi j i * (c.at θ₀).w mi i o + (c.at θ₀).b mi o)) G = R := rfl
    rw [hR']
    rw [add_comm (∑ mi ∈ Finset.range ml, _) (mlpPairing ml c.size cs R.1), add_assoc]
    congr 1
    rw [← Finset.sum_add_distrib]
    refine Finset.sum_congr rfl fun mi _ => ?_
    have e1 : (c.at θ₀).w = c.w θ₀ := rfl
    have e2 : (c.at θ₀).b = c.b θ₀ := rfl
    have e3 : (c.at θ₀).size = c.size := rfl
    rw [e1, e2, e3]
    generalize hgz : (fun j o => R.2 mi j o * a.grad (∑ i ∈ Finset.range prev, x θ₀ mi j i * c.w θ₀ mi i o + c.b θ₀ mi o)) = gz
    have hg : ∀ j o, R.2 mi j o * a.grad (∑ i ∈ Finset.range prev, x θ₀ mi j i * c.w θ₀ mi i o + c.b θ₀ mi o) = gz j o :=
      fun j o => congrFun (congrFun hgz j) o
    simp only [← mul_assoc, hg]
    have s1 : ∑ i ∈ Finset.range prev, ∑ o ∈ Finset.range c.size, (∑ j, x θ₀ mi j i * gz j o) * c.w' mi i o =
        ∑ j, ∑ o ∈ Finset.range c.size, ∑ i ∈ Finset.range prev, x θ₀ mi j i * gz j o * c.w' mi i o := by
      rw [Finset.sum_comm]
      simp only [Finset.sum_mul]
      rw [Finset.sum_congr rfl fun o _ => Finset.sum_comm, Finset.sum_comm]
    have s2 : ∑ o ∈ Finset.range c.size, (∑ j, gz j o) * c.b' mi o = ∑ j, ∑ o ∈ Finset.range c.size, gz j o * c.b' mi o := by
      simp only [Finset.sum_mul]
      rw [Finset.sum_comm]
    rw [s1, s2, ← Finset.sum_add_distrib, ← Finset.sum_add_distrib]
    refine Finset.sum_congr rfl fun j _ => ?_
    have s3 : ∑ i ∈ Finset.range prev, (∑ o ∈ Finset.range c.size, gz j o * c.w θ₀ mi i o) * x' mi j i =
        ∑ o ∈ Finset.range c.size, ∑ i ∈ Finset.range prev, gz j o * c.w θ₀ mi i o * x' mi j i := by
      simp only [Finset.sum_mul]
      rw [Finset.sum_comm]
    rw [s3, ← Finset.sum_add_distrib, ← Finset.sum_add_distrib]
    refine Finset.sum_congr rfl fun o _ => ?_
    rw [mul_add, Finset.mul_sum]
    simp only [mul_add, Finset.sum_add_distrib]
    have t1 : ∑ i ∈ Finset.range prev, gz j o * (x' mi j i * c.w θ₀ mi i o) =
        ∑ i ∈ Finset.range prev, gz j o * c.w θ₀ mi i o * x' mi j i := Finset.sum_congr rfl fun i _ => by ring
    have t2 : ∑ i ∈ Finset.range prev, gz j o * (x θ₀ mi j i * c.w' mi i o) =
        ∑ i ∈ Finset.range prev, x θ₀ mi j i * gz j o * c.w' mi i o := Finset.sum_congr rfl fun i _ => by ring
    rw [t1, t2]
    ring

/-- Rows are independent. -/
theorem mlpSmooth_rows (a : NonLin) (ml : ℕ) {P : ℕ} : ∀ (ls : List (MlpLayer ℝ)) (prev : ℕ) (x : ℕ → Fin P → ℕ → ℝ),
    (∀ j, MlpSmooth a ml prev ls (fun mi (_ : Fin 1) => x mi j)) → MlpSmooth a ml prev ls x := by
  intro ls
  induction ls with
  | nil => intros; trivial
  | cons l ls ih =>
    intro prev x h
    exact ⟨fun mi hmi j o ho => (h j).1 mi hmi 0 o ho, ih _ _ fun j => (h j).2⟩

/-- Every output of the MLPs on one row is differentiable. -/
theorem mlp_differentiable (a : NonLin) (θ₀ : ℝ) (ml : ℕ) (cs : List MlpCurve) (prev : ℕ) (x : ℝ → ℕ → ℝ) (x' : ℕ → ℝ)
    (hm : MlpMoves θ₀ ml prev cs) (hx : ∀ i < prev, HasDerivAt (fun θ => x θ i) (x' i) θ₀)
    (hs : MlpSmooth a ml prev (cs.map (fun c => c.at θ₀)) (fun _ (_ : Fin 1) => x θ₀)) (mi h : ℕ) (hmi : mi < ml)
    (hh : h < curveOut prev cs) :
    DifferentiableAt ℝ (fun θ => mlpEval a.fwd mi prev (cs.map (fun c => c.at θ)) (x θ) h) θ₀ := by
  have := C156_mlp_partial a θ₀ ml (P := 1) (fun m' _ h' => if m' = mi ∧ h' = h then 1 else 0) cs prev
    (fun θ _ _ => x θ) (fun _ _ => x') hm (fun _ _ _ => hx) hs
  refine (this.differentiableAt).congr_of_eventuallyEq (Filter.Eventually.of_forall fun θ => ?_)
  symm
  dsimp only
  rw [Finset.sum_eq_single mi]
  · rw [Fin.sum_univ_one, Finset.sum_eq_single h]
    · rw [if_pos ⟨rfl, rfl⟩, one_mul]
    · intro h' _ hne; rw [if_neg (fun e => hne e.2), zero_mul]
    · intro hn; exact absurd (Finset.mem_range.mpr hh) hn
  · intro m' _ hne
    refine Finset.sum_eq_zero fun j _ => Finset.sum_eq_zero fun h' _ => ?_
    rw [if_neg (fun e => hne e.1), zero_mul]
  · intro hn; exact absurd (Finset.mem_range.mpr hmi) hn

theorem curveOut_getLast : ∀ (cs : List MlpCurve) (prev : ℕ) (θ : ℝ), cs ≠ [] →
    (((cs.map (fun c => c.at θ)).getLast?.map MlpLayer.size).getD 0) = curveOut prev cs := by
  intro cs
  induction cs with
  | nil => intro _ _ h; exact absurd rfl h
  | cons c cs ih =>
    intro prev θ _
    cases cs with
    | nil => rfl
    | cons c' cs' =>
      rw [List.map_cons, List.map_cons, List.getLast?_cons_cons]
      exact ih c.size θ (by simp)

variable {k : ℕ}

/-- The gradients of the points through the kernel inputs. -/
theorem input_pairing {n m D : ℕ} (ids : List (Fin n × Fin m)) (radius : ℝ) (ml : ℕ) (R : ℕ → Fin ids.length → ℕ → ℝ)
    (gIn : Fin ids.length → ℕ → ℝ) (hg : ∀ j d, gIn j d = ∑ mi ∈ Finset.range ml, R mi j d)
    (x' : Fin n → Fin D → ℝ) (y' : Fin m → Fin D → ℝ)
    (xG' : Fin n → Fin D → ℝ) (yG : Fin m → Fin D → ℝ) (hinp : (xG', yG) = inputBackward ids radius gIn) :
    ∑ mi ∈ Finset.range ml, ∑ j : Fin ids.length, ∑ i ∈ Finset.range D,
        R mi j i * rowOf (fun d => (x' (ids.get j).1 d - y' (ids.get j).2 d) / radius) i =
      ∑ p, ∑ d, xG' p d * x' p d + ∑ c, ∑ d, yG c d * y' c d := by
  have e1 : ∑ mi ∈ Finset.range ml, ∑ j : Fin ids.length, ∑ i ∈ Finset.range D,
      R mi j i * rowOf (fun d => (x' (ids.get j).1 d - y' (ids.get j).2 d) / radius) i =
      ∑ j : Fin ids.length, ∑ d : Fin D, gIn j d.val * ((x' (ids.get j).1 d - y' (ids.get j).2 d) / radius) := by
    rw [Finset.sum_comm]
    refine Finset.sum_congr rfl fun j _ => ?_
    rw [Finset.sum_comm, ← Fin.sum_univ_eq_sum_range (fun i => ∑ mi ∈ Finset.range ml, R mi j i *
      rowOf (fun d => (x' (ids.get j).1 d - y' (ids.get j).2 d) / radius) i) D]
    refine Finset.sum_congr rfl fun d _ => ?_
    rw [← Finset.sum_mul, ← hg]
    congr 1
    unfold rowOf gatherD
    rw [dif_pos d.isLt]
  rw [e1]
  have hx1 : ∀ p d, xG' p d = ∑ j : Fin ids.length, if (ids.get j).1 = p then gIn j d.val / radius else 0 := fun p d =>
    congrFun (congrFun (Prod.mk.inj hinp).1 p) d
  have hy1 : ∀ c d, yG c d = ∑ j : Fin ids.length, if (ids.get j).2 = c then -(gIn j d.val / radius) else 0 := fun c d =>
    congrFun (congrFun (Prod.mk.inj hinp).2 c) d
  have e2 : ∑ p, ∑ d, xG' p d * x' p d = ∑ j : Fin ids.length, ∑ d : Fin D, gIn j d.val / radius * x' (ids.get j).1 d := by
    simp only [hx1, Finset.sum_mul]
    rw [Finset.sum_congr rfl fun p _ => Finset.sum_comm, Finset.sum_comm]
    refine Finset.sum_congr rfl fun j _ => ?_
    rw [Finset.sum_comm]
    refine Finset.sum_congr rfl fun d _ => ?_
    rw [Finset.sum_eq_single (ids.get j).1]
    · rw [if_pos rfl]
    · intro p _ hne; rw [if_neg (Ne.symm hne), zero_mul]
    · intro hn; exact absurd (Finset.mem_univ _) hn
  have e3 : ∑ c, ∑ d, yG c d * y' c d = ∑ j : Fin ids.length, ∑ d : Fin D, -(gIn j d.val / radius) * y' (ids.get j).2 d := by
    simp only [hy1, Finset.sum_mul]
    rw [Finset.sum_congr rfl fun p _ => Finset.sum_comm, Finset.sum_comm]
    refine Finset.sum_congr rfl fun j _ => ?_
    rw [Finset.sum_comm]
    refine Finset.sum_congr rfl fun d _ => ?_
    rw [Finset.sum_eq_single (ids.get j).2]
    · rw [if_pos rfl]
    · intro p _ hne; rw [if_neg (Ne.symm hne), zero_mul]
    · intro hn; exact absurd (Finset.mem_univ _) hn
  rw [e2, e3, ← Finset.sum_add_distrib]
  refine Finset.sum_congr rfl fun j _ => ?_
  rw [← Finset.sum_add_distrib]
  refine Finset.sum_congr rfl fun d _ => ?_
  ring

/-- The sum of gradients times velocities of the outputs equals the sum over the parameters and inputs. -/
theorem mlp_transfer (a : NonLin) (θ₀ : ℝ) (ml hid D : ℕ) (cs : List MlpCurve) (hid' : curveOut D cs = hid) {P : ℕ}
    (u : ℝ → Fin P → ℕ → ℝ) (u' : Fin P → ℕ → ℝ) (hu : ∀ j, ∀ i < D, HasDerivAt (fun θ => u θ j i) (u' j i) θ₀)
    (hmv : MlpMoves θ₀ ml D cs)
    (hsm : ∀ j, MlpSmooth a ml D (cs.map (fun c => c.at θ₀)) (fun _ (_ : Fin 1) => u θ₀ j))
    (mG : ℕ → ℕ → ℝ) (M' : Fin P → ℕ → ℝ)
    (hM : ∀ j, ∀ b < ml * hid, HasDerivAt (fun θ => mlpEval a.fwd (b / hid) D (cs.map (fun c => c.at θ)) (u θ j) (b % hid))
      (M' j b) θ₀) :
    ∑ j, ∑ b ∈ Finset.range (ml * hid), mG j.val b * M' j b =
      mlpPairing ml D cs (mlpGrad a D (cs.map (fun c => c.at θ₀)) (fun _ => u θ₀)
        (fun mi (j : Fin P) h => mG j.val (mi * hid + h))).1 +
      ∑ mi ∈ Finset.range ml, ∑ j, ∑ i ∈ Finset.range D, (mlpGrad a D (cs.map (fun c => c.at θ₀)) (fun _ => u θ₀)
        (fun mi (j : Fin P) h => mG j.val (mi * hid + h))).2 mi j i * u' j i := by
  have hrev := C156_mlp_partial a θ₀ ml (fun mi (j : Fin P) h => mG j.val (mi * hid + h)) cs D
    (fun θ _ => u θ) (fun _ => u') hmv (fun _ _ j i hi => hu j i hi) (mlpSmooth_rows a ml _ _ _ hsm)
  refine HasDerivAt.unique (𝕜 := ℝ) ?_ hrev
  have e : (fun θ => ∑ mi ∈ Finset.range ml, ∑ j : Fin P, ∑ h ∈ Finset.range (curveOut D cs),
      mG j.val (mi * hid + h) * mlpEval a.fwd mi D (cs.map (fun c => c.at θ)) (u θ j) h) =
      fun θ => ∑ j : Fin P, ∑ b ∈ Finset.range (ml * hid), mG j.val b *
        mlpEval a.fwd (b / hid) D (cs.map (fun c => c.at θ)) (u θ j) (b % hid) := by
    funext θ
    rw [Finset.sum_comm, hid']
    refine Finset.sum_congr rfl fun j _ => ?_
    rw [sum_range_mul_blocks]
    refine Finset.sum_congr rfl fun mi _ => Finset.sum_congr rfl fun h hh => ?_
    have hlt := Finset.mem_range.mp hh
    rw [Nat.add_mul_div_right _ _ (by omega), Nat.div_eq_of_lt hlt, zero_add, Nat.add_mul_mod_self_right, Nat.mod_eq_of_lt hlt,
      add_comm]
  rw [e]
  exact HasDerivAt.fun_sum fun j _ => HasDerivAt.fun_sum fun b hbm => (hM j b (Finset.mem_range.mp hbm)).const_mul _

/-- **C156, the whole layer.** Points, centres, features, kernel MLPs and final weights move along any curve that is
differentiable at `θ₀`; there no two points are exactly one radius apart (unless they do not move relative to each other) and no activation function is at a kink.  Then
for every run of the backward pass at `θ₀` and all runs of the layer at the other positions, the weighted sum of the
outputs is differentiable at `θ₀` and its derivative is the sum of all returned gradients times the velocities. -/
theorem C156_mcconv_partial (a : NonLin) (Ws : ℕ) (eps radius bw : ℝ) (hr : 0 < radius) (hbw : 0 < bw) (hW : 0 < Ws)
    (n m : ℕ) (hn : 0 < n) (hm : 0 < m) (hone : n ≤ 512 + Ws * 64) (hone' : m ≤ 512 + Ws * 64) (hk : k ≤ 1)
    (bi : Fin n → ℕ) (bo : Fin m → ℕ) (Bi Bo ci co ml hid : ℕ) (hml : ml ≠ 0) (hdiv : ml ∣ co)
    (hb : opBasisOk (ml * hid) = true) (hf : opFeaturesOk ci = true)
    (θ₀ : ℝ) (x : ℝ → Fin n → Fin (k + 2) → ℝ) (y : ℝ → Fin m → Fin (k + 2) → ℝ) (f : ℝ → Fin n → ℕ → ℝ)
    (cs : List MlpCurve) (hcs : cs ≠ []) (hid' : curveOut (k + 2) cs = hid) (fin : ℝ → ℕ → ℕ → ℕ → ℝ)
    (hin : ∀ p q, bi p = bi q → OffRadius θ₀ radius fun θ d => x θ p d - x θ q d)
    (hout : ∀ p c, bi p = bo c → OffRadius θ₀ radius fun θ d => x θ p d - y θ c d)
    (x' : Fin n → Fin (k + 2) → ℝ) (y' : Fin m → Fin (k + 2) → ℝ) (f' : Fin n → ℕ → ℝ) (w' : ℕ → ℕ → ℕ → ℝ)
    (hx : ∀ p d, HasDerivAt (fun θ => x θ p d) (x' p d) θ₀) (hy : ∀ c d, HasDerivAt (fun θ => y θ c d) (y' c d) θ₀)
    (hfe : ∀ p, ∀ ch < ci, HasDerivAt (fun θ => f θ p ch) (f' p ch) θ₀)
    (hmv : MlpMoves θ₀ ml (k + 2) cs)
    (hsm : ∀ p c, bi p = bo c → ∑ d, (x θ₀ p d - y θ₀ c d) ^ 2 < radius ^ 2 →
      MlpSmooth a ml (k + 2) (cs.map (fun c => c.at θ₀)) (fun _ (_ : Fin 1) => rowOf (fun d => (x θ₀ p d - y θ₀ c d) / radius)))
    (hw : ∀ mi < ml, ∀ t < ci * hid, ∀ o < co / ml, HasDerivAt (fun θ => fin θ mi t o) (w' mi t o) θ₀)
    (out : ℝ → Fin m → ℕ → ℝ)
    (hcall : ∀ θ, (⟨ci, co, ml, cs.map (fun c => c.at θ), fin θ⟩ : MCLayer ℝ).GpuCall a.fwd Ws eps ⟨n, x θ, bi, Bi⟩
      ⟨m, y θ, bo, Bo⟩ radius bw (f θ) (out θ))
    (G : Fin m → ℕ → ℝ) (ids : List (Fin n × Fin m)) (mG : ℕ → ℕ → ℝ) (xG : Fin n → Fin (k + 2) → ℝ)
    (fG : Fin n → ℕ → ℝ) (wG : ℕ → ℕ → ℕ → ℝ)
    (hback : (⟨ci, co, ml, cs.map (fun c => c.at θ₀), fin θ₀⟩ : MCLayer ℝ).GpuBackward a.fwd Ws eps ⟨n, x θ₀, bi, Bi⟩
      ⟨m, y θ₀, bo, Bo⟩ radius bw (f θ₀) G ids mG xG fG wG)
    (lG : List (MlpLayer ℝ)) (gIn : Fin ids.length → ℕ → ℝ)
    (hmlp : (lG, gIn) = (⟨ci, co, ml, cs.map (fun c => c.at θ₀), fin θ₀⟩ : MCLayer ℝ).mlpBackward a (k + 2)
      (fun j : Fin ids.length => rowOf (fun d => (x θ₀ (ids.get j).1 d - y θ₀ (ids.get j).2 d) / radius)) mG)
    (xG' : Fin n → Fin (k + 2) → ℝ) (yG : Fin m → Fin (k + 2) → ℝ) (hinp : (xG', yG) = inputBackward ids radius gIn) :
    HasDerivAt (fun θ => ∑ c, ∑ o ∈ Finset.range co, G c o * out θ c o)
      (mlpPairing ml (k + 2) cs lG + ∑ p, ∑ d, (xG p d + xG' p d) * x' p d + ∑ c, ∑ d, yG c d * y' c d +
        ∑ p, ∑ ch ∈ Finset.range ci, fG p ch * f' p ch +
        ∑ mi ∈ Finset.range ml, ∑ t ∈ Finset.range (ci * hid), ∑ o ∈ Finset.range (co / ml),
          wG mi t o * w' mi t o) θ₀ := by
  have hhid : ∀ θ, (⟨ci, co, ml, cs.map (fun c => c.at θ), fin θ⟩ : MCLayer ℝ).hid = hid := fun θ => by
    rw [← hid']; exact curveOut_getLast cs (k + 2) θ hcs
  -- the kernel inputs
  have hrow : ∀ p c, ∀ i < k + 2, HasDerivAt (fun θ => rowOf (fun d => (x θ p d - y θ c d) / radius) i)
      (rowOf (fun d => (x' p d - y' c d) / radius) i) θ₀ := by
    intro p c i hi
    have e : ∀ u : Fin (k + 2) → ℝ, rowOf u i = u ⟨i, hi⟩ := fun u => by unfold rowOf gatherD; rw [dif_pos hi]
    simp only [e]
    exact ((hx p _).sub (hy c _)).div_const _
  obtain ⟨M', hM⟩ : ∃ M' : Fin n → Fin m → ℕ → ℝ, ∀ p c, bi p = bo c → ∑ d, (x θ₀ p d - y θ₀ c d) ^ 2 < radius ^ 2 →
      ∀ b < ml * hid, HasDerivAt (fun θ => mlpEval a.fwd (b / hid) (k + 2) (cs.map (fun c => c.at θ))
        (rowOf (fun d => (x θ p d - y θ c d) / radius)) (b % hid)) (M' p c b) θ₀ := by
    refine ⟨fun p c b => deriv (fun θ => mlpEval a.fwd (b / hid) (k + 2) (cs.map (fun c => c.at θ))
        (rowOf (fun d => (x θ p d - y θ c d) / radius)) (b % hid)) θ₀, ?_⟩
    intro p c hpc hlt b hbb
    have hpos : 0 < hid := Nat.pos_of_ne_zero (by rintro rfl; simp at hbb)
    refine (mlp_differentiable a θ₀ ml cs (k + 2) (fun θ => rowOf (fun d => (x θ p d - y θ c d) / radius)) _ hmv
      (hrow p c) (hsm p c hpc hlt) (b / hid) (b % hid) ?_ ?_).hasDerivAt
    · exact Nat.div_lt_of_lt_mul (by rwa [mul_comm] at hbb)
    · rw [hid']; exact Nat.mod_lt _ hpos
  have h109 : HasDerivAt (fun θ => ∑ c, ∑ o ∈ Finset.range co, G c o * out θ c o)
      (∑ j : Fin ids.length, ∑ b ∈ Finset.range (ml * hid), mG j.val b * M' (ids.get j).1 (ids.get j).2 b +
        ∑ p, ∑ d, xG p d * x' p d + ∑ p, ∑ ch ∈ Finset.range ci, fG p ch * f' p ch +
        ∑ mi ∈ Finset.range ml, ∑ t ∈ Finset.range (ci * hid), ∑ o ∈ Finset.range (co / ml),
          wG mi t o * w' mi t o) θ₀ := by
    clear hmlp hinp
    obtain ⟨L, hL⟩ : ∃ L : ℝ → MCLayer ℝ, ∀ θ, L θ = ⟨ci, co, ml, cs.map (fun c => c.at θ), fin θ⟩ := ⟨_, fun _ => rfl⟩
    have l1 : ∀ θ, (L θ).cin = ci ∧ (L θ).cout = co ∧ (L θ).mlps = ml ∧ (L θ).hid = hid := fun θ => by
      rw [hL]; exact ⟨rfl, rfl, rfl, hhid θ⟩
    have l2 : ∀ θ, (L θ).layers = cs.map (fun c => c.at θ) := fun θ => by rw [hL]
    have l3 : ∀ θ, (L θ).final = fin θ := fun θ => by rw [hL]
    simp only [← hL] at hcall hback
    simp only [← l2] at hM
    simp only [← l3] at hw
    exact C109_mcconv_partial a.fwd Ws eps radius bw hr hbw hW n m hn hm hone hone' hk bi bo Bi Bo ci co ml hid hml hdiv
      hb hf θ₀ x y f L l1 hin hout x' f' M' w' hx (fun c d => (hy c d).continuousAt) hfe hM hw out hcall G ids mG xG fG wG hback
  refine h109.congr_deriv ?_
  -- the pairs are neighbours
  have hnear : ∀ j : Fin ids.length, bi (ids.get j).1 = bo (ids.get j).2 ∧
      ∑ d, (x θ₀ (ids.get j).1 d - y θ₀ (ids.get j).2 d) ^ 2 < radius ^ 2 := by
    obtain ⟨nb, self, B, W, B1, W1, pdfPts, wf, bG, ptG, b1, rfl, _⟩ := hback
    obtain ⟨g1, g2, g3⟩ := gpuIds_spec Ws ⟨n, x θ₀, bi, Bi⟩ ⟨m, y θ₀, bo, Bo⟩ radius eps hr hW hm hone' nb b1
    intro j
    have hmem : (List.get _ j).1 ∈ nbrs (⟨n, x θ₀, bi, Bi⟩ : Cloud (Fin (k + 2) → ℝ)) ⟨m, y θ₀, bo, Bo⟩ radius (List.get _ j).2 := by
      rw [← g3 (List.get _ j).2, Finset.mem_filter]
      exact ⟨Finset.mem_univ _, List.get_mem _ j⟩
    rw [mem_nbrs] at hmem
    refine ⟨hmem.1, ?_⟩
    simpa [sq] using hmem.2.2
  obtain ⟨hl, hg⟩ := Prod.mk.inj hmlp
  have htr := mlp_transfer a θ₀ ml hid (k + 2) cs hid'
    (fun θ (j : Fin ids.length) => rowOf (fun d => (x θ (ids.get j).1 d - y θ (ids.get j).2 d) / radius))
    (fun j => rowOf (fun d => (x' (ids.get j).1 d - y' (ids.get j).2 d) / radius)) (fun j i hi => hrow _ _ i hi) hmv
    (fun j => hsm _ _ (hnear j).1 (hnear j).2) mG _ (fun j b hb => hM _ _ (hnear j).1 (hnear j).2 b hb)
  rw [htr]
  clear htr h109 hM hcall hback
  rw [hhid] at hl hg
  rw [← hl, input_pairing ids radius ml _ gIn (fun j d => congrFun (congrFun hg j) d) x' y' xG' yG hinp]
  have e4 : ∑ p, ∑ d, (xG p d + xG' p d) * x' p d = ∑ p, ∑ d, xG p d * x' p d + ∑ p, ∑ d, xG' p d * x' p d := by
    rw [← Finset.sum_add_distrib]
    refine Finset.sum_congr rfl fun p _ => ?_
    rw [← Finset.sum_add_distrib]
    exact Finset.sum_congr rfl fun d _ => by ring
  rw [e4]
  ring

/-! ### Kinks -/

/-- Derivative from the right. -/
theorem NonLin.deriv_right (a : NonLin) (z : ℝ) :
    HasDerivWithinAt a.fwd (if z = 0 then 1 else a.grad z) (Ici z) z := by
  by_cases hz : z = 0
  · rw [if_pos hz]
    subst hz
    refine (hasDerivAt_id (0 : ℝ)).hasDerivWithinAt.congr (fun t ht => ?_) ?_
    · have ht : (0 : ℝ) ≤ t := ht
      cases a
      · exact max_eq_left ht
      · exact max_eq_right (by linarith)
      · exact if_neg (not_lt.mpr ht)
    · cases a <;> simp [NonLin.fwd]
  · rw [if_neg hz]
    exact (a.deriv z (Or.inr hz)).hasDerivWithinAt

/-- The slope of a rectified unit to the left of its kink. -/
noncomputable def NonLin.leftSlope : NonLin → ℝ
  | .relu => 0
  | .leaky => 2 / 10
  | .elu => 1

theorem NonLin.grad_zero (a : NonLin) : a.grad 0 = a.leftSlope := by
  cases a <;> simp [NonLin.grad, NonLin.leftSlope, NonLin.fwd]

/-- The loss as a function of one bias of a network with one hidden layer. -/
noncomputable def biasLoss (a : NonLin) (ml D : ℕ) {P : ℕ} (l : MlpLayer ℝ) (x : ℕ → Fin P → ℕ → ℝ) (G : ℕ → Fin P → ℕ → ℝ)
    (m₀ o₀ : ℕ) (t : ℝ) : ℝ :=
  ∑ mi ∈ Finset.range ml, ∑ j, ∑ h ∈ Finset.range l.size, G mi j h *
    mlpEval a.fwd mi D [⟨l.size, l.w, fun mi o => l.b mi o + if mi = m₀ ∧ o = o₀ then t else 0⟩] (x mi j) h

theorem biasLoss_split (a : NonLin) (ml D : ℕ) {P : ℕ} (l : MlpLayer ℝ) (x : ℕ → Fin P → ℕ → ℝ) (G : ℕ → Fin P → ℕ → ℝ)
    (m₀ o₀ : ℕ) (hm : m₀ < ml) (ho : o₀ < l.size) : ∃ C, ∀ t, biasLoss a ml D l x G m₀ o₀ t =
      C + ∑ j, G m₀ j o₀ * a.fwd (∑ i ∈ Finset.range D, x m₀ j i * l.w m₀ i o₀ + l.b m₀ o₀ + t) := by
  refine ⟨∑ mi ∈ Finset.range ml, ∑ j, ∑ h ∈ Finset.range l.size, if mi = m₀ ∧ h = o₀ then 0 else G mi j h *
    a.fwd (∑ i ∈ Finset.range D, x mi j i * l.w mi i h + l.b mi h), fun t => ?_⟩
  have e : ∑ j, G m₀ j o₀ * a.fwd (∑ i ∈ Finset.range D, x m₀ j i * l.w m₀ i o₀ + l.b m₀ o₀ + t) =
      ∑ mi ∈ Finset.range ml, ∑ j, ∑ h ∈ Finset.range l.size, if mi = m₀ ∧ h = o₀ then
        G mi j h * a.fwd (∑ i ∈ Finset.range D, x mi j i * l.w mi i h + l.b mi h + t) else 0 := by
    rw [Finset.sum_eq_single m₀]
    · refine Finset.sum_congr rfl fun j _ => ?_
      symm
      rw [Finset.sum_eq_single o₀]
      · rw [if_pos ⟨rfl, rfl⟩]
      · intro h _ hne; rw [if_neg (fun e => hne e.2)]
      · intro hn; exact absurd (Finset.mem_range.mpr ho) hn
    · intro mi _ hne
      exact Finset.sum_eq_zero fun j _ => Finset.sum_eq_zero fun h _ => if_neg (fun e => hne e.1)
    · intro hn; exact absurd (Finset.mem_range.mpr hm) hn
  rw [e, ← Finset.sum_add_distrib]
  unfold biasLoss
  refine Finset.sum_congr rfl fun mi _ => ?_
  rw [← Finset.sum_add_distrib]
  refine Finset.sum_congr rfl fun j _ => ?_
  rw [← Finset.sum_add_distrib]
  refine Finset.sum_congr rfl fun h _ => ?_
  simp only [mlpEval]
  by_cases hc : mi = m₀ ∧ h = o₀
  · rw [if_pos hc, if_pos hc, if_pos hc, zero_add, add_assoc]
  · rw [if_neg hc, if_neg hc, if_neg hc, add_zero, add_zero]

/-- **C156, at kinks.** For kernel MLPs with one hidden layer (the default), every input and every bias: the gradient is
the derivative *from the left*; the loss is differentiable at all only if the gradients of those outputs that are at the
kink add up to zero. -/
theorem C156_bias_kink (a : NonLin) (ha : a ≠ .elu) (ml D : ℕ) {P : ℕ} (l : MlpLayer ℝ) (x : ℕ → Fin P → ℕ → ℝ)
    (G : ℕ → Fin P → ℕ → ℝ) (m₀ o₀ : ℕ) (hm : m₀ < ml) (ho : o₀ < l.size) :
    ∃ g, (mlpGrad a D [l] x G).1 = [g] ∧
      HasDerivWithinAt (biasLoss a ml D l x G m₀ o₀) (g.b m₀ o₀) (Iic 0) 0 ∧
      (DifferentiableAt ℝ (biasLoss a ml D l x G m₀ o₀) 0 ↔
        ∑ j, (if ∑ i ∈ Finset.range D, x m₀ j i * l.w m₀ i o₀ + l.b m₀ o₀ = 0 then G m₀ j o₀ else 0) = 0) ∧
      (DifferentiableAt ℝ (biasLoss a ml D l x G m₀ o₀) 0 → HasDerivAt (biasLoss a ml D l x G m₀ o₀) (g.b m₀ o₀) 0) := by
  obtain ⟨C, hC⟩ := biasLoss_split a ml D l x G m₀ o₀ hm ho
  rw [funext hC]
  refine ⟨_, rfl, ?_⟩
  dsimp only [mlpGrad]
  set z : Fin P → ℝ := fun j => ∑ i ∈ Finset.range D, x m₀ j i * l.w m₀ i o₀ + l.b m₀ o₀ with hz
  have hzj : ∀ j, ∑ i ∈ Finset.range D, x m₀ j i * l.w m₀ i o₀ + l.b m₀ o₀ = z j := fun _ => rfl
  simp only [hzj]
  have hshift : ∀ (j : Fin P) (s : Set ℝ) (s' : Set ℝ) (d : ℝ), HasDerivWithinAt a.fwd d s (z j) →
      MapsTo (fun t => z j + t) s' s → HasDerivWithinAt (fun t => a.fwd (z j + t)) d s' 0 := by
    intro j s s' d hd hmaps
    have h1 : HasDerivWithinAt (fun t => z j + t) 1 s' 0 := ((hasDerivAt_id (0 : ℝ)).const_add (z j)).hasDerivWithinAt
    have h2 : HasDerivWithinAt a.fwd d s (z j + 0) := by rwa [add_zero]
    have := HasDerivWithinAt.comp (0 : ℝ) h2 h1 hmaps
    rwa [mul_one] at this
  have hleft : HasDerivWithinAt (fun t => C + ∑ j, G m₀ j o₀ * a.fwd (z j + t)) (∑ j, G m₀ j o₀ * a.grad (z j)) (Iic 0) 0 := by
    refine HasDerivWithinAt.const_add _ (HasDerivWithinAt.fun_sum fun j _ => HasDerivWithinAt.const_mul _ ?_)
    exact hshift j (Iic (z j)) _ _ (a.deriv_left (z j)) (fun t ht => by
      have : t ≤ 0 := ht
      show z j + t ≤ z j
      linarith)
  have hright : HasDerivWithinAt (fun t => C + ∑ j, G m₀ j o₀ * a.fwd (z j + t))
      (∑ j, G m₀ j o₀ * (if z j = 0 then 1 else a.grad (z j))) (Ici 0) 0 := by
    refine HasDerivWithinAt.const_add _ (HasDerivWithinAt.fun_sum fun j _ => HasDerivWithinAt.const_mul _ ?_)
    exact hshift j (Ici (z j)) _ _ (a.deriv_right (z j)) (fun t ht => by
      have : 0 ≤ t := ht
      show z j ≤ z j + t
      linarith)
  have hdiff : ∑ j, G m₀ j o₀ * (if z j = 0 then 1 else a.grad (z j)) - ∑ j, G m₀ j o₀ * a.grad (z j) =
      (1 - a.leftSlope) * ∑ j, (if z j = 0 then G m₀ j o₀ else 0) := by
    rw [← Finset.sum_sub_distrib, Finset.mul_sum]
    refine Finset.sum_congr rfl fun j _ => ?_
    by_cases h0 : z j = 0
    · rw [if_pos h0, if_pos h0, h0, a.grad_zero]; ring
    · rw [if_neg h0, if_neg h0]; ring
  have hs : 1 - a.leftSlope ≠ 0 := by
    cases a
    · norm_num [NonLin.leftSlope]
    · norm_num [NonLin.leftSlope]
    · exact absurd rfl ha
  have hmain : DifferentiableAt ℝ (fun t => C + ∑ j, G m₀ j o₀ * a.fwd (z j + t)) 0 →
      HasDerivAt (fun t => C + ∑ j, G m₀ j o₀ * a.fwd (z j + t)) (∑ j, G m₀ j o₀ * a.grad (z j)) 0 := by
    intro hd
    have h1 := hd.hasDerivAt
    have h2 := (uniqueDiffWithinAt_Iic (0 : ℝ)).eq_deriv _ h1.hasDerivWithinAt hleft
    rwa [h2] at h1
  refine ⟨hleft, ⟨fun hd => ?_, fun h0 => ?_⟩, hmain⟩
  · have h2 := (uniqueDiffWithinAt_Ici (0 : ℝ)).eq_deriv _ (hmain hd).hasDerivWithinAt hright
    rw [h2, sub_self] at hdiff
    rcases mul_eq_zero.mp hdiff.symm with h | h
    · exact absurd h hs
    · exact h
  · rw [h0, mul_zero, sub_eq_zero] at hdiff
    rw [hdiff] at hright
    have := (hleft.union hright)
    rw [Iic_union_Ici, hasDerivWithinAt_univ] at this
    exact this.differentiableAt

/-- **C156, at the initial values.** The biases are initialised with zeros; then every output of every kernel MLP is
exactly at the kink wherever a point is its own neighbour (the kernel input is zero). -/
theorem C156_initial (a : NonLin) (ha : a ≠ .elu) (ml : ℕ) (hml : 0 < ml) {P : ℕ} (ls : List (MlpLayer ℝ)) (prev : ℕ)
    (hb : ∀ l ∈ ls, ∀ mi o, l.b mi o = 0) (hne : ∃ l ∈ ls, 0 < l.size) (x : ℕ → Fin P → ℕ → ℝ) (j : Fin P)
    (h0 : ∀ mi, ∀ i < prev, x mi j i = 0) : ¬ MlpSmooth a ml prev ls x := by
  induction ls generalizing prev x with
  | nil => obtain ⟨l, hl, _⟩ := hne; cases hl
  | cons l ls ih =>
    rintro ⟨h1, h2⟩
    have hz : ∀ mi o, ∑ i ∈ Finset.range prev, x mi j i * l.w mi i o + l.b mi o = 0 := by
      intro mi o
      rw [hb l (List.mem_cons_self ..), add_zero]
      exact Finset.sum_eq_zero fun i hi => by rw [h0 mi i (Finset.mem_range.mp hi), zero_mul]
    by_cases hs : 0 < l.size
    · rcases h1 0 hml j 0 hs with h | h
      · exact ha h
      · exact h (hz 0 0)
    · refine ih l.size (fun l' hl' => hb l' (List.mem_cons_of_mem _ hl')) ?_ _ ?_ h2
      · obtain ⟨l', hl', hp⟩ := hne
        rcases List.mem_cons.mp hl' with rfl | h
        · exact absurd hp hs
        · exact ⟨l', h, hp⟩
      · intro mi i hi; omega

/-- **C156 fails at the initial values**: with zero biases, one point that is its own neighbour and the default activation
function, the loss is not differentiable with respect to the bias. -/
theorem C156_initial_false : ¬ ∀ (a : NonLin) (ml D : ℕ) (l : MlpLayer ℝ) (x G : ℕ → Fin 1 → ℕ → ℝ) (m₀ o₀ : ℕ), m₀ < ml →
    o₀ < l.size → (∀ mi o, l.b mi o = 0) → ∃ g, (mlpGrad a D [l] x G).1 = [g] ∧
      HasDerivAt (biasLoss a ml D l x G m₀ o₀) (g.b m₀ o₀) 0 := by
  intro h
  obtain ⟨g, hg, hd⟩ := h .leaky 1 3 ⟨1, fun _ _ _ => 1, fun _ _ => 0⟩ (fun _ _ _ => 0) (fun _ _ _ => 1) 0 0 one_pos one_pos
    (fun _ _ => rfl)
  obtain ⟨g', hg', _, h2, _⟩ := C156_bias_kink .leaky (by simp) 1 3 ⟨1, fun _ _ _ => 1, fun _ _ => 0⟩
    (fun _ (_ : Fin 1) _ => 0) (fun _ _ _ => 1) 0 0 one_pos one_pos
  have := h2.1 hd.differentiableAt
  simp at this

/-- The conditions of `C156_mlp_partial` can be met: two layers, two rows, weights moving. -/
example : MlpSmooth (P := 2) .leaky 1 1 [⟨1, fun _ _ _ => 1, fun _ _ => 1⟩, ⟨1, fun _ _ _ => -2, fun _ _ => 0⟩] (fun _ j _ => j.val) ∧
    MlpMoves 0 1 1 [⟨1, fun θ _ _ _ => 1 + θ, fun _ _ _ => 1, fun _ _ _ => 1, fun _ _ => 0⟩] := by
  refine ⟨⟨fun mi _ j o _ => Or.inr ?_, fun mi _ j o _ => Or.inr ?_, trivial⟩, fun _ _ _ _ _ _ => ?_, fun _ _ _ _ => ?_, trivial⟩
  · have : (0 : ℝ) ≤ j.val := Nat.cast_nonneg _
    simp only [Finset.range_one, Finset.sum_singleton]
    linarith
  · have : (0 : ℝ) ≤ j.val := Nat.cast_nonneg _
    simp only [Finset.range_one, Finset.sum_singleton, NonLin.fwd]
    have : (j.val : ℝ) * 1 + 1 ≤ max (2 / 10 * ((j.val : ℝ) * 1 + 1)) ((j.val : ℝ) * 1 + 1) := le_max_right _ _
    intro h
    linarith
  · simpa using (hasDerivAt_id (0 : ℝ)).const_add 1
  · exact hasDerivAt_const _ _

end PC
