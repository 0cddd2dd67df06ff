import Verif.Props.Layers2
import Verif.Props.Layers3
import Mathlib.Algebra.BigOperators.Field

/-!
# C119: rotating the point cloud

A rotation (or reflection) of all points has the same effect as turning the
learned spatial filters the other way: with the filters turned along, the layers
return the same features.
-/

set_option linter.unusedVariables false
set_option linter.unusedSectionVars false

namespace PC

variable {D : ℕ}

/-- Specification: `R` has orthonormal columns. -/
def Orthonormal' (R : Fin D → Fin D → ℝ) : Prop := ∀ d e, ∑ i, R i d * R i e = if d = e then 1 else 0

/-- Specification: `R` applied to a vector. -/
noncomputable def turn (R : Fin D → Fin D → ℝ) (x : Fin D → ℝ) (i : Fin D) : ℝ := ∑ d, R i d * x d

/-- Specification: all points of a cloud turned. -/
noncomputable def Cloud.turn (c : Cloud (Fin D → ℝ)) (R : Fin D → Fin D → ℝ) : Cloud (Fin D → ℝ) :=
  ⟨c.n, fun i => PC.turn R (c.pts i), c.batch, c.B⟩

theorem turn_sub (R : Fin D → Fin D → ℝ) (x y : Fin D → ℝ) (i : Fin D) :
    turn R x i - turn R y i = turn R (fun d => x d - y d) i := by
  unfold turn
  rw [← Finset.sum_sub_distrib]
  exact Finset.sum_congr rfl (fun d _ => by ring)

theorem turn_div (R : Fin D → Fin D → ℝ) (x : Fin D → ℝ) (r : ℝ) (i : Fin D) :
    turn R x i / r = turn R (fun d => x d / r) i := by
  unfold turn
  rw [Finset.sum_div]
  exact Finset.sum_congr rfl (fun d _ => by ring)

theorem turn_add (R : Fin D → Fin D → ℝ) (x y : Fin D → ℝ) (i : Fin D) :
    turn R x i + turn R y i = turn R (fun d => x d + y d) i := by
  unfold turn
  rw [← Finset.sum_add_distrib]
  exact Finset.sum_congr rfl (fun d _ => by ring)

theorem turn_inner {R : Fin D → Fin D → ℝ} (hR : Orthonormal' R) (x y : Fin D → ℝ) :
    ∑ i, turn R x i * turn R y i = ∑ d, x d * y d := by
  have h : ∀ i, turn R x i * turn R y i = ∑ d, ∑ e, (R i d * R i e) * (x d * y e) := by
    intro i
    unfold turn
    rw [Finset.sum_mul_sum]
    exact Finset.sum_congr rfl (fun d _ => Finset.sum_congr rfl (fun e _ => by ring))
  simp only [h]
  rw [Finset.sum_comm]
  refine Finset.sum_congr rfl (fun d _ => ?_)
  rw [Finset.sum_comm]
  simp only [← Finset.sum_mul, hR d]
  simp

theorem turn_norm2 {R : Fin D → Fin D → ℝ} (hR : Orthonormal' R) (x : Fin D → ℝ) : norm2 (turn R x) = norm2 x := by
  unfold norm2
  simp only [pow_two]
  rw [turn_inner hR]

theorem turn_normLt {R : Fin D → Fin D → ℝ} (hR : Orthonormal' R) (x : Fin D → ℝ) (r : ℝ) :
    normLt (turn R x) r ↔ normLt x r := by
  unfold normLt
  rw [turn_inner hR]

theorem nbrs_turn {R : Fin D → Fin D → ℝ} (hR : Orthonormal' R) (cin cout : Cloud (Fin D → ℝ)) (radius : ℝ)
    (c : Fin cout.n) : nbrs (cin.turn R) (cout.turn R) radius c = nbrs cin cout radius c := by
  unfold nbrs Cloud.turn
  simp only [turn_sub]
  simp only [show ∀ x : Fin D → ℝ, (fun d => turn R x d) = turn R x from fun _ => rfl, turn_normLt hR]

/-- A product of Gaussians of equal width depends on the distance only. -/
theorem gauss_prod (x : Fin D → ℝ) :
    ∏ d, gauss (x d) = Real.exp (-(∑ d, x d * x d) / 2) / Real.sqrt (2 * Real.pi) ^ D := by
  unfold gauss
  rw [Finset.prod_div_distrib, ← Real.exp_sum, Finset.prod_const, Finset.card_univ, Fintype.card_fin]
  congr 2
  rw [← Finset.sum_div, Finset.sum_neg_distrib]
  simp only [pow_two]

theorem density_turn {D : ℕ} {R : Fin (D + 1) → Fin (D + 1) → ℝ} (hR : Orthonormal' R)
    (c : Cloud (Fin (D + 1) → ℝ)) (bw radius : ℝ) (p : Fin c.n) :
    density gauss (c.turn R) (fun _ => bw) (fun _ => radius) p =
      density gauss c (fun _ => bw) (fun _ => radius) p := by
  unfold density
  congr 1
  refine Finset.sum_congr (nbrs_turn hR c c radius p) (fun q _ => ?_)
  rw [gauss_prod, gauss_prod]
  congr 4
  have : ∀ d, ((c.turn R).pts q d - (c.turn R).pts p d) / (bw * radius) =
      turn R (fun d => (c.pts q d - c.pts p d) / (bw * radius)) d := by
    intro d
    show (turn R (c.pts q) d - turn R (c.pts p) d) / _ = _
    rw [turn_sub, turn_div]
  simp only [this]
  exact turn_inner hR _ _

/-- Specification: a matrix with one row per coordinate, its columns turned. -/
noncomputable def turnRows (R : Fin D → Fin D → ℝ) (w : ℕ → ℕ → ℝ) (i o : ℕ) : ℝ :=
  if h : i < D then turn R (fun d => w d.val o) ⟨i, h⟩ else w i o

/-- Specification: the `MCConv` layer whose first kernel layer is turned. -/
noncomputable def MCLayer.turn (L : MCLayer ℝ) (R : Fin D → Fin D → ℝ) : MCLayer ℝ :=
  { L with layers := match L.layers with
      | [] => []
      | l :: ls => { l with w := fun m => turnRows R (l.w m) } :: ls }

/-- Specification: the `PointConv` layer with turned axes. -/
noncomputable def PCLayer.turn (L : PCLayer ℝ) (R : Fin D → Fin D → ℝ) : PCLayer ℝ :=
  { L with axis := turnRows R L.axis }

/-- Specification: the `KPConv` layer with turned kernel points and turned offsets. -/
noncomputable def KPLayer.turn (L : KPLayer D) (R : Fin D → Fin D → ℝ) : KPLayer D :=
  { L with
    kp := fun b => PC.turn R (L.kp b)
    offs := L.offs.map (fun wo x y => if h : 0 < D then
      PC.turn R (fun d => wo x (y / D * D + d.val)) ⟨y % D, Nat.mod_lt _ h⟩ else wo x y) }

theorem rowOf_val {K : Type*} [Zero K] (x : Fin D → K) (d : Fin D) : rowOf x d.val = x d := by
  unfold rowOf gatherD
  simp

theorem sum_rowOf (x : Fin D → ℝ) (w : ℕ → ℝ) :
    ∑ i ∈ Finset.range D, rowOf x i * w i = ∑ d : Fin D, x d * w d.val := by
  rw [← Fin.sum_univ_eq_sum_range (fun i => rowOf x i * w i) D]
  simp only [rowOf_val]

theorem first_layer_turn {R : Fin D → Fin D → ℝ} (hR : Orthonormal' R) (x : Fin D → ℝ) (w : ℕ → ℕ → ℝ) (o : ℕ) :
    ∑ i ∈ Finset.range D, rowOf (turn R x) i * turnRows R w i o = ∑ i ∈ Finset.range D, rowOf x i * w i o := by
  rw [sum_rowOf _ (fun i => turnRows R w i o), sum_rowOf _ (fun i => w i o)]
  rw [← turn_inner hR x (fun d => w d.val o)]
  refine Finset.sum_congr rfl (fun i _ => ?_)
  unfold turnRows
  rw [dif_pos i.isLt]

theorem mlpEval_turn {R : Fin D → Fin D → ℝ} (hR : Orthonormal' R) (act : ℝ → ℝ) (L : MCLayer ℝ) (m : ℕ)
    (x : Fin D → ℝ) (hne : L.layers ≠ []) (hh : ℕ) :
    mlpEval act m D (L.turn R).layers (rowOf (turn R x)) hh = mlpEval act m D L.layers (rowOf x) hh := by
  unfold MCLayer.turn
  cases hl : L.layers with
  | nil => exact absurd hl hne
  | cons l ls =>
    dsimp only
    unfold mlpEval
    simp only [first_layer_turn hR]

theorem MCLayer.turn_hid (L : MCLayer ℝ) (R : Fin D → Fin D → ℝ) : (L.turn R).hid = L.hid := by
  unfold MCLayer.hid MCLayer.turn
  cases L.layers with
  | nil => rfl
  | cons l ls => cases ls <;> rfl

theorem diff_turn (R : Fin D → Fin D → ℝ) (cin cout : Cloud (Fin D → ℝ)) (p : Fin cin.n) (c : Fin cout.n) :
    (fun d => (cin.turn R).pts p d - (cout.turn R).pts c d) = turn R (fun d => cin.pts p d - cout.pts c d) := by
  funext d
  exact turn_sub R _ _ d

section
variable {k : ℕ}

/-- **C119, MCConv.** -/
theorem C119_mcconv (act : ℝ → ℝ) (dev dev' : Device) (eps : ℝ) (L : MCLayer ℝ)
    (cin cout : Cloud (Fin (k + 2) → ℝ)) (radius bw : ℝ) (hok : LayerOk cin cout radius eps)
    (R : Fin (k + 2) → Fin (k + 2) → ℝ) (hR : Orthonormal' R) (f : Fin cin.n → ℕ → ℝ)
    (out out' : Fin cout.n → ℕ → ℝ)
    (h : L.call gauss act dev eps cin cout radius bw f = .ok out)
    (h' : (L.turn R).call gauss act dev' eps (cin.turn R) (cout.turn R) radius bw f = .ok out') :
    out' = out := by
  funext c o
  rw [C41_mcconv_formula gauss act dev eps L cin cout radius bw hok f out h c o,
    C41_mcconv_formula gauss act dev' eps (L.turn R) (cin.turn R) (cout.turn R) radius bw
      ⟨hok.valid, hok.radius_pos, hok.eps_pos⟩ f out' h' c o]
  unfold mcSpec
  rw [MCLayer.turn_hid]
  refine Finset.sum_congr (nbrs_turn hR cin cout radius c) (fun p _ => Finset.sum_congr rfl
    (fun ch _ => Finset.sum_congr rfl (fun hh hhh => ?_)))
  have h1 : density gauss (cin.turn R) (fun _ => bw) (fun _ => radius) p =
    density gauss cin (fun _ => bw) (fun _ => radius) p := density_turn hR _ _ _ _
  have h2 : (fun d => ((cin.turn R).pts p d - (cout.turn R).pts c d) / radius) =
      turn R (fun d => (cin.pts p d - cout.pts c d) / radius) := by
    funext d
    show (turn R (cin.pts p) d - turn R (cout.pts c) d) / _ = _
    rw [turn_sub, turn_div]
  have hne : L.layers ≠ [] := by
    intro he
    rw [MCLayer.hid, he] at hhh
    simp at hhh
  rw [h1, h2, mlpEval_turn hR act L _ _ hne]
  rfl

/-- **C119, PointConv.** -/
theorem C119_pointconv (act : ℝ → ℝ) (dev dev' : Device) (eps : ℝ) (L : PCLayer ℝ)
    (cin cout : Cloud (Fin (k + 2) → ℝ)) (radius bw : ℝ) (hok : LayerOk cin cout radius eps)
    (R : Fin (k + 2) → Fin (k + 2) → ℝ) (hR : Orthonormal' R) (f : Fin cin.n → ℕ → ℝ)
    (out out' : Fin cout.n → ℕ → ℝ)
    (h : L.call gauss act dev eps cin cout radius bw f = .ok out)
    (h' : (L.turn R).call gauss act dev' eps (cin.turn R) (cout.turn R) radius bw f = .ok out') :
    out' = out := by
  funext c o
  rw [C41_pointconv_formula gauss act dev eps L cin cout radius bw hok f out h c o,
    C41_pointconv_formula gauss act dev' eps (L.turn R) (cin.turn R) (cout.turn R) radius bw
      ⟨hok.valid, hok.radius_pos, hok.eps_pos⟩ f out' h' c o]
  unfold pcSpec
  refine Finset.sum_congr (nbrs_turn hR cin cout radius c) (fun p _ => Finset.sum_congr rfl
    (fun ch _ => Finset.sum_congr rfl (fun hh _ => ?_)))
  have h1 : (density gauss (cin.turn R) (fun _ => bw) (fun _ => radius) : Fin cin.n → ℝ) =
    density gauss cin (fun _ => bw) (fun _ => radius) := funext (fun p => density_turn hR _ _ _ _)
  have h3 : maxOver (nbrs (cin.turn R) (cout.turn R) radius c)
      (density gauss (cin.turn R) (fun _ => bw) (fun _ => radius)) =
      maxOver (nbrs cin cout radius c) (density gauss cin (fun _ => bw) (fun _ => radius)) :=
    congrArg₂ (maxOver (ι := Fin cin.n)) (nbrs_turn hR cin cout radius c) h1
  rw [h3, show (fun d => (cin.turn R).pts p d - (cout.turn R).pts c d) = _ from diff_turn R cin cout p c]
  rw [show density gauss (cin.turn R) (fun _ => bw) (fun _ => radius) p = _ from congrFun h1 p]
  show f p ch * (act (∑ i ∈ Finset.range (k + 2), rowOf (turn R _) i * turnRows R L.axis i hh + L.bias hh) / _) * _ = _
  rw [first_layer_turn hR]
  rfl

theorem kpOffset_turn {R : Fin D → Fin D → ℝ} (hR : Orthonormal' R) (L : KPLayer D) (wo : ℕ → ℕ → ℝ) (sigma : ℝ)
    (cin cout : Cloud (Fin D → ℝ)) (radius : ℝ) (f : Fin cin.n → ℕ → ℝ) (c : Fin cout.n) (b : ℕ) (d : Fin D) :
    kpOffset (L.turn R) (fun x y => if h : 0 < D then
      turn R (fun d => wo x (y / D * D + d.val)) ⟨y % D, Nat.mod_lt _ h⟩ else wo x y) sigma
      (cin.turn R) (cout.turn R) radius f c b d =
    turn R (kpOffset L wo sigma cin cout radius f c b) d := by
  have hD : 0 < D := Nat.lt_of_le_of_lt (Nat.zero_le _) d.isLt
  have e1 : (b * D + d.val) / D = b := by
    rw [Nat.add_comm, Nat.add_mul_div_right _ _ hD, Nat.div_eq_of_lt d.isLt, Nat.zero_add]
  have e2 : (b * D + d.val) % D = d.val := by
    rw [Nat.add_comm, Nat.add_mul_mod_self_right, Nat.mod_eq_of_lt d.isLt]
  have e3 : (⟨(b * D + d.val) % D, Nat.mod_lt _ hD⟩ : Fin D) = d := Fin.ext e2
  have hw : ∀ (p : Fin cin.n) b', norm2 (fun d => ((cin.turn R).pts p d - (cout.turn R).pts c d) / radius -
      (L.turn R).kp b' d) = norm2 (fun d => (cin.pts p d - cout.pts c d) / radius - L.kp b' d) := by
    intro p b'
    rw [← turn_norm2 hR (fun d => (cin.pts p d - cout.pts c d) / radius - L.kp b' d)]
    congr 1
    funext d
    show (turn R (cin.pts p) d - turn R (cout.pts c) d) / radius - turn R (L.kp b') d = _
    rw [turn_sub, turn_div, turn_sub]
  unfold kpOffset
  simp only [dif_pos hD, e1, e3]
  have hrhs : turn R (fun d => ∑ p ∈ nbrs cin cout radius c, ∑ ch ∈ Finset.range L.cin, ∑ b' ∈ Finset.range L.nk,
      f p ch * L.interp.weight (norm2 (fun d => (cin.pts p d - cout.pts c d) / radius - L.kp b' d)) sigma *
        wo (ch * L.nk + b') (b * D + d.val)) d =
      ∑ p ∈ nbrs cin cout radius c, ∑ ch ∈ Finset.range L.cin, ∑ b' ∈ Finset.range L.nk,
      f p ch * L.interp.weight (norm2 (fun d => (cin.pts p d - cout.pts c d) / radius - L.kp b' d)) sigma *
        turn R (fun d => wo (ch * L.nk + b') (b * D + d.val)) d := by
    unfold turn
    simp only [Finset.mul_sum]
    rw [Finset.sum_comm]
    refine Finset.sum_congr rfl (fun p _ => ?_)
    rw [Finset.sum_comm]
    refine Finset.sum_congr rfl (fun ch _ => ?_)
    rw [Finset.sum_comm]
    refine Finset.sum_congr rfl (fun b' _ => ?_)
    refine Finset.sum_congr rfl (fun e _ => ?_)
    ring
  rw [hrhs]
  refine Finset.sum_congr (nbrs_turn hR cin cout radius c) (fun p _ => Finset.sum_congr rfl
    (fun ch _ => Finset.sum_congr rfl (fun b' _ => ?_)))
  rw [hw p b']
  rfl

theorem kpSpec_turn {R : Fin D → Fin D → ℝ} (hR : Orthonormal' R) (L : KPLayer D) (sigma : ℝ)
    (cin cout : Cloud (Fin D → ℝ)) (radius : ℝ) (f : Fin cin.n → ℕ → ℝ) (c : Fin cout.n) (o : ℕ) :
    kpSpec (L.turn R) sigma (cin.turn R) (cout.turn R) radius f c o = kpSpec L sigma cin cout radius f c o := by
  unfold kpSpec
  refine Finset.sum_congr (nbrs_turn hR cin cout radius c) (fun p _ => Finset.sum_congr rfl
    (fun ch _ => Finset.sum_congr rfl (fun b _ => ?_)))
  have key : ∀ (o1 o2 : Fin D → ℝ), (∀ d, o1 d = turn R o2 d) →
      norm2 (fun d => ((cin.turn R).pts p d - (cout.turn R).pts c d) / radius - ((L.turn R).kp b d + o1 d)) =
      norm2 (fun d => (cin.pts p d - cout.pts c d) / radius - (L.kp b d + o2 d)) := by
    intro o1 o2 ho
    rw [← turn_norm2 hR (fun d => (cin.pts p d - cout.pts c d) / radius - (L.kp b d + o2 d))]
    congr 1
    funext d
    show (turn R (cin.pts p) d - turn R (cout.pts c) d) / radius - (turn R (L.kp b) d + o1 d) = _
    rw [ho, turn_sub, turn_div, turn_add, turn_sub]
  unfold KPLayer.turn at key ⊢
  cases hoffs : L.offs with
  | none =>
    rw [hoffs] at key
    simp only [Option.map_none] at key ⊢
    rw [key (fun _ => 0) (fun _ => 0) (by intro d; simp [turn])]
  | some wo =>
    rw [hoffs] at key
    simp only [Option.map_some] at key ⊢
    rw [key _ (kpOffset L wo sigma cin cout radius f c b) (by
      intro d
      have := kpOffset_turn hR L wo sigma cin cout radius f c b d
      unfold KPLayer.turn at this
      rw [hoffs] at this
      exact this)]

/-- **C119, KPConv**, rigid or deformable. -/
theorem C119_kpconv (dev dev' : Device) (eps : ℝ) (L : KPLayer (k + 2))
    (cin cout : Cloud (Fin (k + 2) → ℝ)) (radius : ℝ) (hok : LayerOk cin cout radius eps)
    (influence : Option ℝ) (hcin : 0 < L.cin) (hnk : 0 < L.nk) (hkp : L.nkp = L.nk)
    (R : Fin (k + 2) → Fin (k + 2) → ℝ) (hR : Orthonormal' R) (f : Fin cin.n → ℕ → ℝ)
    (out out' : ℕ × (ℕ → ℕ → ℝ))
    (h : L.call dev eps cin cout radius influence f = .ok out)
    (h' : (L.turn R).call dev' eps (cin.turn R) (cout.turn R) radius influence f = .ok out') :
    out'.1 = out.1 ∧ ∀ (c : Fin cout.n) (o : ℕ), out'.2 c.val o = out.2 c.val o := by
  obtain ⟨a1, a2⟩ := kp_call_spec hok hcin hnk hkp h
  obtain ⟨b1, b2⟩ := kp_call_spec (cin := cin.turn R) (cout := cout.turn R) (L := L.turn R)
    ⟨hok.valid, hok.radius_pos, hok.eps_pos⟩ hcin hnk hkp h'
  refine ⟨b1.trans a1.symm, fun c o => ?_⟩
  rw [a2 c o]
  exact (b2 c o).trans (kpSpec_turn hR L _ cin cout radius f c o)

end

/-- The rotation of the plane by an angle has orthonormal columns. -/
theorem rot2_orthonormal (a : ℝ) : Orthonormal' ![![Real.cos a, -Real.sin a], ![Real.sin a, Real.cos a]] := by
  intro d e
  have := Real.sin_sq_add_cos_sq a
  fin_cases d <;> fin_cases e <;> simp [Fin.sum_univ_two] <;> nlinarith

/-- The hypotheses hold, for any rotation of the plane, cloud and layer: on the GPU both
calls return. -/
example (a : ℝ) (act : ℝ → ℝ) (eps : ℝ) (L : MCLayer ℝ) (cin cout : Cloud (Fin 2 → ℝ)) (radius bw : ℝ)
    (hok : LayerOk cin cout radius eps) (hn : 0 < cout.n) (hin : 0 < cin.n) (hB : ∀ i, cout.batch i < cin.B)
    (f : Fin cin.n → ℕ → ℝ) :
    ∃ out : Fin cout.n → ℕ → ℝ, L.call gauss act .gpu eps cin cout radius bw f = .ok out ∧
      (L.turn ![![Real.cos a, -Real.sin a], ![Real.sin a, Real.cos a]]).call gauss act .gpu eps
        (cin.turn ![![Real.cos a, -Real.sin a], ![Real.sin a, Real.cos a]])
        (cout.turn ![![Real.cos a, -Real.sin a], ![Real.sin a, Real.cos a]]) radius bw f = .ok out := by
  obtain ⟨out, h⟩ := C41_mcconv_returns (k := 0) gauss act eps L cin cout radius bw hok hn hin hB f
  obtain ⟨out', h'⟩ := C41_mcconv_returns (k := 0) gauss act eps
    (L.turn ![![Real.cos a, -Real.sin a], ![Real.sin a, Real.cos a]])
    (cin.turn ![![Real.cos a, -Real.sin a], ![Real.sin a, Real.cos a]])
    (cout.turn ![![Real.cos a, -Real.sin a], ![Real.sin a, Real.cos a]]) radius bw
    ⟨hok.valid, hok.radius_pos, hok.eps_pos⟩ hn hin hB f
  have := C119_mcconv act .gpu .gpu eps L cin cout radius bw hok _ (rot2_orthonormal a) f out out' h h'
  subst this
  exact ⟨_, h, h'⟩

/-- One point, half a unit to the right of the origin. -/
noncomputable abbrev rightPt : Cloud (Fin 2 → ℝ) := ⟨1, fun _ => ![1 / 2, 0], fun _ => 0, 1⟩

/-- The origin. -/
noncomputable abbrev originPt : Cloud (Fin 2 → ℝ) := ⟨1, fun _ => ![0, 0], fun _ => 0, 1⟩

/-- One kernel point, half a unit to the right of the origin. -/
noncomputable abbrev rightKernel : KPLayer 2 := ⟨1, 1, 1, fun _ => ![1 / 2, 0], .linear, fun _ _ => 1, none⟩

theorem rightKernel_value (v : Fin 2 → ℝ) (hv : ∑ d, v d * v d < 1) (c : Fin 1) (o : ℕ) :
    kpSpec rightKernel 1 ⟨1, fun _ => v, fun _ => 0, 1⟩ originPt 1 (fun _ _ => 1) c o =
      max (1 - norm2 (fun d => v d - ![1 / 2, 0] d)) 0 := by
  have hn : nbrs (⟨1, fun _ => v, fun _ => 0, 1⟩ : Cloud (Fin 2 → ℝ)) originPt 1 c = Finset.univ := by
    ext p
    simp only [nbrs, Finset.mem_filter, Finset.mem_univ, true_and, iff_true, normLt, zero_lt_one, mul_one]
    have : ∀ d : Fin 2, (![0, 0] : Fin 2 → ℝ) d = 0 := by intro d; fin_cases d <;> rfl
    simpa [this] using hv
  unfold kpSpec
  rw [hn]
  have : ∀ d : Fin 2, (![0, 0] : Fin 2 → ℝ) d = 0 := by intro d; fin_cases d <;> rfl
  simp [this, Interp.weight]

/-- **C119 needs the filters to turn along**: without turning the kernel points, a
quarter turn of the cloud changes the output of `KPConv`. -/
theorem C119_filters_must_turn : ¬ ∀ (L : KPLayer 2) (cin cout : Cloud (Fin 2 → ℝ)) (radius eps : ℝ)
    (_ : LayerOk cin cout radius eps) (_ : 0 < L.cin) (_ : 0 < L.nk) (_ : L.nkp = L.nk)
    (R : Fin 2 → Fin 2 → ℝ) (_ : Orthonormal' R) (f : Fin cin.n → ℕ → ℝ) (out out' : ℕ × (ℕ → ℕ → ℝ)),
    L.call (k := 0) .gpu eps cin cout radius none f = .ok out →
    L.call (k := 0) .gpu eps (cin.turn R) (cout.turn R) radius none f = .ok out' →
    ∀ (c : Fin cout.n) (o : ℕ), out'.2 c.val o = out.2 c.val o := by
  intro H
  have hR : Orthonormal' (![![0, -1], ![1, 0]] : Fin 2 → Fin 2 → ℝ) := by
    intro d e
    fin_cases d <;> fin_cases e <;> simp [Fin.sum_univ_two]
  have hok : LayerOk rightPt originPt 1 (1 : ℝ) := ⟨fun _ => by simp, one_pos, one_pos⟩
  have e1 : rightPt.turn ![![0, -1], ![1, 0]] = ⟨1, fun _ => ![0, 1 / 2], fun _ => 0, 1⟩ := by
    unfold Cloud.turn turn
    congr 1
    funext i d
    fin_cases d <;> simp [Fin.sum_univ_two]
  have e2 : originPt.turn ![![0, -1], ![1, 0]] = originPt := by
    unfold Cloud.turn turn
    congr 1
    funext i d
    fin_cases d <;> simp [Fin.sum_univ_two]
  have hok' : LayerOk (⟨1, fun _ => ![0, 1 / 2], fun _ => 0, 1⟩ : Cloud (Fin 2 → ℝ)) originPt 1 (1 : ℝ) :=
    ⟨fun _ => by simp, one_pos, one_pos⟩
  obtain ⟨out, h⟩ := C41_kpconv_returns (k := 0) 1 rightKernel rightPt originPt 1 hok none (by simp) (by simp) rfl
    (by simp) (fun _ => by simp) (fun _ _ => 1)
  obtain ⟨out', h'⟩ := C41_kpconv_returns (k := 0) 1 rightKernel _ originPt 1 hok' none (by simp) (by simp) rfl
    (by simp) (fun _ => by simp) (fun _ _ => 1)
  have hcall : ∀ c : Cloud (Fin 2 → ℝ), c = ⟨1, fun _ => ![0, 1 / 2], fun _ => 0, 1⟩ →
      rightKernel.call (k := 0) .gpu 1 c originPt 1 none (fun _ _ => 1) = .ok (1, out') := by
    rintro c rfl
    exact h'
  have h1 := (kp_call_spec hok (by simp) (by simp) rfl h).2 0 0
  have h2 := (kp_call_spec hok' (by simp) (by simp) rfl h').2 0 0
  have h3 := H rightKernel rightPt originPt 1 1 hok (by simp) (by simp) rfl _ hR (fun _ _ => 1) _ (1, out') h
    (by rw [e2]; exact hcall _ e1) 0 0
  rw [h1] at h3
  have h4 : kpSpec rightKernel 1 ⟨1, fun _ => ![0, 1 / 2], fun _ => 0, 1⟩ originPt 1 (fun _ _ => 1) 0 0 =
      kpSpec rightKernel 1 rightPt originPt 1 (fun _ _ => 1) 0 0 := h2.symm.trans h3
  rw [rightKernel_value _ (by norm_num [Fin.sum_univ_two]), rightKernel_value _ (by norm_num [Fin.sum_univ_two])] at h4
  have h5 : norm2 (fun d : Fin 2 => (![1 / 2, 0] : Fin 2 → ℝ) d - ![1 / 2, 0] d) = 0 := by
    simp [norm2]
  have h6 : 0 < norm2 (fun d : Fin 2 => (![0, 1 / 2] : Fin 2 → ℝ) d - ![1 / 2, 0] d) := by
    unfold norm2
    apply Real.sqrt_pos.2
    norm_num [Fin.sum_univ_two]
  rw [h5, sub_zero, max_eq_left zero_le_one] at h4
  have := max_lt (show 1 - norm2 (fun d : Fin 2 => (![0, 1 / 2] : Fin 2 → ℝ) d - ![1 / 2, 0] d) < 1 by linarith)
    (zero_lt_one)
  linarith

end PC
