import Verif.Props.Layers4
import Mathlib.Analysis.SpecialFunctions.ExpDeriv
import Mathlib.Analysis.SpecialFunctions.Sqrt
import Mathlib.Analysis.Calculus.Deriv.Abs
import Mathlib.Tactic.FunProp

/-!
# C149: the deformable kernel point convolution

Its relation to the rigid one, and whether its output can be differentiated with
respect to what is trained (KPConv.py:135-163, 165-232, 317-392).
-/

set_option linter.unusedVariables false
set_option linter.unusedSectionVars false

namespace PC

variable {k : ℕ}

theorem conv_zero {D : ℕ} (L : KPLayer D) (hkp : L.nkp = L.nk) (sigma : ℝ) {n m nf : ℕ}
    (pairs : List (Fin n × Fin m)) (input : Fin pairs.length → Fin D → ℝ) (f : Fin nf → ℕ → ℝ) :
    ({ L with offs := some (fun _ _ => 0) } : KPLayer D).conv sigma pairs input f =
      ({ L with offs := none } : KPLayer D).conv sigma pairs input f := by
  obtain ⟨cin, nk, nkp, kp, interp, weights, offs⟩ := L
  dsimp only at hkp
  subst hkp
  have hw : ∀ (x : Option (ℕ → ℕ → ℝ)) (i : Fin D → ℝ) (o : ℕ → Fin D → ℝ),
      (⟨cin, nkp, nkp, kp, interp, weights, x⟩ : KPLayer D).weightRow sigma i o =
        (⟨cin, nkp, nkp, kp, interp, weights, none⟩ : KPLayer D).weightRow sigma i o := fun _ _ _ => rfl
  unfold KPLayer.conv KPLayer.offsets
  simp only [ne_eq, not_true_eq_false, if_false, hw (some _)]
  cases hp : kpProject cin nkp nkp pairs (fun j => (⟨cin, nkp, nkp, kp, interp, weights, none⟩ : KPLayer D).weightRow
      sigma (input j) (fun _ _ => 0)) f with
  | error e => rfl
  | ok r =>
    obtain ⟨rows, wf⟩ := r
    simp only [mul_zero, Finset.sum_const_zero, hp]

/-- **C149, zero offset weights.** A deformable layer whose offset weights are zero is the rigid layer: same
exceptions, same values, on every cloud (with as many kernel points as configured; otherwise the deformable
layer raises, C39). -/
theorem C149_zero_offsets (dev : Device) (eps : ℝ) (L : KPLayer (k + 2)) (hkp : L.nkp = L.nk)
    (cin cout : Cloud (Fin (k + 2) → ℝ)) (radius : ℝ) (influence : Option ℝ) (f : Fin cin.n → ℕ → ℝ) :
    ({ L with offs := some (fun _ _ => 0) } : KPLayer (k + 2)).call dev eps cin cout radius influence f =
      ({ L with offs := none } : KPLayer (k + 2)).call dev eps cin cout radius influence f := by
  unfold KPLayer.call
  cases layerNbh dev eps cin cout radius with
  | error e => rfl
  | ok h =>
    dsimp only
    exact conv_zero L hkp _ _ _ _

/-- **C149, zero features.** Where all features are zero, so is the output, for every layer. -/
theorem C149_zero_features (dev : Device) (eps : ℝ) (L : KPLayer (k + 2))
    (cin cout : Cloud (Fin (k + 2) → ℝ)) (radius : ℝ) (hok : LayerOk cin cout radius eps) (influence : Option ℝ)
    (hcin : 0 < L.cin) (hnk : 0 < L.nk) (hkp : L.nkp = L.nk) (f : Fin cin.n → ℕ → ℝ)
    (out : ℕ × (ℕ → ℕ → ℝ)) (h : L.call dev eps cin cout radius influence f = .ok out) (c : Fin cout.n)
    (hf : ∀ p ∈ nbrs cin cout radius c, ∀ ch < L.cin, f p ch = 0) (o : ℕ) : out.2 c.val o = 0 := by
  rw [(kp_call_spec hok hcin hnk hkp h).2]
  unfold kpSpec
  refine Finset.sum_eq_zero fun p hp => Finset.sum_eq_zero fun ch hch => Finset.sum_eq_zero fun b hb => ?_
  rw [hf p hp ch (Finset.mem_range.1 hch), zero_mul, zero_mul]

/-- **C149, linear in the convolution weights**, deformable or not. -/
theorem C149_weights_linear (dev dev' dev'' : Device) (eps : ℝ) (L : KPLayer (k + 2))
    (cin cout : Cloud (Fin (k + 2) → ℝ)) (radius : ℝ) (hok : LayerOk cin cout radius eps) (influence : Option ℝ)
    (hcin : 0 < L.cin) (hnk : 0 < L.nk) (hkp : L.nkp = L.nk) (f : Fin cin.n → ℕ → ℝ) (W W' : ℕ → ℕ → ℝ) (a b : ℝ)
    (out out' out'' : ℕ × (ℕ → ℕ → ℝ))
    (h : ({ L with weights := W } : KPLayer (k + 2)).call dev eps cin cout radius influence f = .ok out)
    (h' : ({ L with weights := W' } : KPLayer (k + 2)).call dev' eps cin cout radius influence f = .ok out')
    (h'' : ({ L with weights := fun x o => a * W x o + b * W' x o } : KPLayer (k + 2)).call dev'' eps cin cout radius
      influence f = .ok out'')
    (c : Fin cout.n) (o : ℕ) : out''.2 c.val o = a * out.2 c.val o + b * out'.2 c.val o := by
  rw [(kp_call_spec (L := { L with weights := W }) hok hcin hnk hkp h).2,
    (kp_call_spec (L := { L with weights := W' }) hok hcin hnk hkp h').2,
    (kp_call_spec (L := { L with weights := fun x o => a * W x o + b * W' x o }) hok hcin hnk hkp h'').2]
  unfold kpSpec
  dsimp only
  simp only [Finset.mul_sum]
  simp only [← Finset.sum_add_distrib]
  refine Finset.sum_congr rfl fun p _ => Finset.sum_congr rfl fun ch _ => Finset.sum_congr rfl fun b' _ => ?_
  cases hoffs : L.offs with
  | none => dsimp only; ring
  | some wo =>
    dsimp only [kpOffset]
    ring

/-! ## Derivatives -/

/-- The distance of the neighbour `p` of the centre `c` to the displaced kernel point `b`. -/
noncomputable def kpDist (L : KPLayer (k + 2)) (wo : ℕ → ℕ → ℝ) (sigma : ℝ) (cin cout : Cloud (Fin (k + 2) → ℝ))
    (radius : ℝ) (f : Fin cin.n → ℕ → ℝ) (c : Fin cout.n) (p : Fin cin.n) (b : ℕ) : ℝ :=
  norm2 (fun d => (cin.pts p d - cout.pts c d) / radius - (L.kp b d + kpOffset L wo sigma cin cout radius f c b d))

/-- A layer whose trained tensors are on a curve. -/
def KPLayer.at (L : KPLayer (k + 2)) (W wo : ℝ → ℕ → ℕ → ℝ) (t : ℝ) : KPLayer (k + 2) :=
  { L with weights := W t, offs := some (wo t) }

theorem kpOffset_diff (L : KPLayer (k + 2)) (W wo : ℝ → ℕ → ℕ → ℝ) (t₀ : ℝ)
    (hwo : ∀ x y, DifferentiableAt ℝ (fun t => wo t x y) t₀) (sigma : ℝ) (cin cout : Cloud (Fin (k + 2) → ℝ))
    (radius : ℝ) (f : ℝ → Fin cin.n → ℕ → ℝ) (hf : ∀ p ch, DifferentiableAt ℝ (fun t => f t p ch) t₀)
    (c : Fin cout.n) (b : ℕ) (d : Fin (k + 2)) :
    DifferentiableAt ℝ (fun t => kpOffset (L.at W wo t) (wo t) sigma cin cout radius (f t) c b d) t₀ := by
  unfold kpOffset KPLayer.at
  dsimp only
  refine DifferentiableAt.fun_sum fun p _ => DifferentiableAt.fun_sum fun ch _ => DifferentiableAt.fun_sum fun b' _ => ?_
  exact ((hf p ch).mul_const _).mul (hwo _ _)

theorem kpSpec_diff (L : KPLayer (k + 2)) (W wo : ℝ → ℕ → ℕ → ℝ) (t₀ : ℝ)
    (hW : ∀ x o, DifferentiableAt ℝ (fun t => W t x o) t₀)
    (sigma : ℝ) (cin cout : Cloud (Fin (k + 2) → ℝ))
    (radius : ℝ) (f : ℝ → Fin cin.n → ℕ → ℝ) (hf : ∀ p ch, DifferentiableAt ℝ (fun t => f t p ch) t₀)
    (c : Fin cout.n) (o : ℕ)
    (hk : ∀ p ∈ nbrs cin cout radius c, ∀ b < L.nk, DifferentiableAt ℝ
      (fun t => L.interp.weight (kpDist (L.at W wo t) (wo t) sigma cin cout radius (f t) c p b) sigma) t₀) :
    DifferentiableAt ℝ (fun t => kpSpec (L.at W wo t) sigma cin cout radius (f t) c o) t₀ := by
  unfold kpSpec
  change DifferentiableAt ℝ (fun t => ∑ p ∈ nbrs cin cout radius c, ∑ ch ∈ Finset.range L.cin, ∑ b ∈ Finset.range L.nk,
    f t p ch * L.interp.weight (kpDist (L.at W wo t) (wo t) sigma cin cout radius (f t) c p b) sigma *
      W t (ch * L.nk + b) o) t₀
  refine DifferentiableAt.fun_sum fun p hp => DifferentiableAt.fun_sum fun ch _ => DifferentiableAt.fun_sum fun b hb => ?_
  exact ((hf p ch).mul (hk p hp b (Finset.mem_range.1 hb))).mul (hW _ _)

/-- **C149, Gaussian interpolation.** The output of a deformable layer is differentiable in the convolution weights,
the offset weights and the features together, at every value of them, whatever the positions of the points. -/
theorem C149_gaussian_differentiable (dev : Device) (eps : ℝ) (L : KPLayer (k + 2)) (hi : L.interp = .gaussian)
    (cin cout : Cloud (Fin (k + 2) → ℝ)) (radius : ℝ) (hok : LayerOk cin cout radius eps) (influence : Option ℝ)
    (hcin : 0 < L.cin) (hnk : 0 < L.nk) (hkp : L.nkp = L.nk) (W wo : ℝ → ℕ → ℕ → ℝ) (f : ℝ → Fin cin.n → ℕ → ℝ)
    (t₀ : ℝ) (hW : ∀ x o, DifferentiableAt ℝ (fun t => W t x o) t₀)
    (hwo : ∀ x y, DifferentiableAt ℝ (fun t => wo t x y) t₀) (hf : ∀ p ch, DifferentiableAt ℝ (fun t => f t p ch) t₀)
    (out : ℝ → ℕ × (ℕ → ℕ → ℝ)) (h : ∀ t, (L.at W wo t).call dev eps cin cout radius influence (f t) = .ok (out t))
    (c : Fin cout.n) (o : ℕ) : DifferentiableAt ℝ (fun t => (out t).2 c.val o) t₀ := by
  have e : (fun t => (out t).2 c.val o) =
      fun t => kpSpec (L.at W wo t) (kpSigma influence radius) cin cout radius (f t) c o :=
    funext fun t => (kp_call_spec (L := L.at W wo t) hok hcin hnk hkp (h t)).2 c o
  rw [e]
  refine kpSpec_diff L W wo t₀ hW _ cin cout radius f hf c o fun p _ b _ => ?_
  rw [hi]
  unfold Interp.weight
  dsimp only
  have hsq : (fun t => kpDist (L.at W wo t) (wo t) (kpSigma influence radius) cin cout radius (f t) c p b ^ 2) =
      fun t => ∑ d, ((cin.pts p d - cout.pts c d) / radius - (L.kp b d +
        kpOffset (L.at W wo t) (wo t) (kpSigma influence radius) cin cout radius (f t) c b d)) ^ 2 := by
    funext t
    unfold kpDist norm2
    rw [Real.sq_sqrt (Finset.sum_nonneg fun d _ => sq_nonneg _)]
    rfl
  have hd : DifferentiableAt ℝ (fun t => kpDist (L.at W wo t) (wo t) (kpSigma influence radius) cin cout radius (f t) c p b ^ 2) t₀ := by
    rw [hsq]
    refine DifferentiableAt.fun_sum fun d _ => ?_
    exact ((differentiableAt_const _).sub ((differentiableAt_const _).add
      (kpOffset_diff L W wo t₀ hwo _ cin cout radius f hf c b d))).pow 2
  simp only [div_pow]
  exact (hd.div_const _).neg.exp

/-- **C149, linear interpolation**: differentiable as long as no neighbour is exactly on a displaced kernel point or exactly at
its influence distance. -/
theorem C149_linear_differentiable_partial (dev : Device) (eps : ℝ) (L : KPLayer (k + 2)) (hi : L.interp = .linear)
    (cin cout : Cloud (Fin (k + 2) → ℝ)) (radius : ℝ) (hok : LayerOk cin cout radius eps) (influence : Option ℝ)
    (hs : kpSigma influence radius ≠ 0)
    (hcin : 0 < L.cin) (hnk : 0 < L.nk) (hkp : L.nkp = L.nk) (W wo : ℝ → ℕ → ℕ → ℝ) (f : ℝ → Fin cin.n → ℕ → ℝ)
    (t₀ : ℝ) (hW : ∀ x o, DifferentiableAt ℝ (fun t => W t x o) t₀)
    (hwo : ∀ x y, DifferentiableAt ℝ (fun t => wo t x y) t₀) (hf : ∀ p ch, DifferentiableAt ℝ (fun t => f t p ch) t₀)
    (out : ℝ → ℕ × (ℕ → ℕ → ℝ)) (h : ∀ t, (L.at W wo t).call dev eps cin cout radius influence (f t) = .ok (out t))
    (c : Fin cout.n) (o : ℕ)
    (hoff : ∀ p ∈ nbrs cin cout radius c, ∀ b < L.nk,
      let δ := kpDist (L.at W wo t₀) (wo t₀) (kpSigma influence radius) cin cout radius (f t₀) c p b
      δ ≠ 0 ∧ δ ≠ kpSigma influence radius) :
    DifferentiableAt ℝ (fun t => (out t).2 c.val o) t₀ := by
  have e : (fun t => (out t).2 c.val o) =
      fun t => kpSpec (L.at W wo t) (kpSigma influence radius) cin cout radius (f t) c o :=
    funext fun t => (kp_call_spec (L := L.at W wo t) hok hcin hnk hkp (h t)).2 c o
  rw [e]
  refine kpSpec_diff L W wo t₀ hW _ cin cout radius f hf c o fun p hp b hb => ?_
  rw [hi]
  unfold Interp.weight
  dsimp only
  obtain ⟨h0, h1⟩ := hoff p hp b hb
  have hd : DifferentiableAt ℝ (fun t => kpDist (L.at W wo t) (wo t) (kpSigma influence radius) cin cout radius (f t) c p b) t₀ := by
    unfold kpDist norm2
    refine DifferentiableAt.sqrt ?_ ?_
    · refine DifferentiableAt.fun_sum fun d _ => ?_
      exact ((differentiableAt_const _).sub ((differentiableAt_const _).add
        (kpOffset_diff L W wo t₀ hwo _ cin cout radius f hf c b d))).pow 2
    · intro hz
      apply h0
      unfold kpDist norm2
      rw [hz, Real.sqrt_zero]
  have hl : DifferentiableAt ℝ (fun t => 1 - kpDist (L.at W wo t) (wo t) (kpSigma influence radius) cin cout radius (f t) c p b /
      kpSigma influence radius) t₀ := (differentiableAt_const _).sub (hd.div_const _)
  have hne : 1 - kpDist (L.at W wo t₀) (wo t₀) (kpSigma influence radius) cin cout radius (f t₀) c p b /
      kpSigma influence radius ≠ 0 := by
    intro hz
    apply h1
    field_simp at hz
    linarith
  rcases lt_or_gt_of_ne hne with hlt | hgt
  · refine (differentiableAt_const (0 : ℝ)).congr_of_eventuallyEq ?_
    filter_upwards [hl.continuousAt.eventually_lt continuousAt_const hlt] with t ht
    exact max_eq_right ht.le
  · refine hl.congr_of_eventuallyEq ?_
    filter_upwards [continuousAt_const.eventually_lt hl.continuousAt hgt] with t ht
    exact max_eq_left ht.le

/-! ## What fails -/

/-- One point, its own neighbour. -/
abbrev oneCloud : Cloud (Fin 2 → ℝ) := ⟨1, fun _ _ => 0, fun _ => 0, 1⟩

/-- A layer with one kernel point, at the centre, as the first of the built-in kernel points. -/
def kinkLayer : KPLayer 2 := ⟨1, 1, 1, fun _ _ => 0, .linear, fun _ _ => 1, none⟩

theorem oneCloud_ok : LayerOk oneCloud oneCloud 1 (1 / 100) :=
  ⟨fun i => Nat.zero_lt_one, one_pos, by norm_num⟩

theorem oneCloud_nbrs (c : Fin 1) : nbrs oneCloud oneCloud 1 c = {0} := by
  ext p
  obtain rfl : p = 0 := Subsingleton.elim (α := Fin 1) _ _
  refine ⟨fun _ => Finset.mem_singleton_self _, fun _ => ?_⟩
  refine (mem_nbrs oneCloud oneCloud 1 c (0 : Fin 1)).2 ⟨rfl, one_pos, ?_⟩
  simp

/-- The output for one feature `a` and the offset weight `t` of the first coordinate. -/
theorem kink_value (a t : ℝ) :
    ∃ out, ((kinkLayer).at (k := 0) (fun _ _ _ => 1) (fun t _ y => if y = 0 then t else 0) t).call .gpu (1 / 100)
      oneCloud oneCloud 1 none (fun _ _ => a) = .ok (1, out) ∧ out 0 0 = a * max (1 - |a * t|) 0 := by
  obtain ⟨out, h⟩ := C41_kpconv_returns (k := 0) (1 / 100)
    ((kinkLayer).at (k := 0) (fun _ _ _ => 1) (fun t _ y => if y = 0 then t else 0) t) oneCloud oneCloud 1 oneCloud_ok
    none Nat.one_pos Nat.one_pos rfl Nat.one_pos (fun _ => Nat.one_pos) (fun _ _ => a)
  refine ⟨out, h, ?_⟩
  have hs := (kp_call_spec (k := 0) oneCloud_ok Nat.one_pos Nat.one_pos rfl h).2 (0 : Fin 1) 0
  refine hs.trans ?_
  unfold kpSpec KPLayer.at kinkLayer
  dsimp only
  rw [oneCloud_nbrs, Finset.sum_singleton, Finset.sum_range_one, Finset.sum_range_one]
  have hoff : ∀ d : Fin 2, kpOffset (⟨1, 1, 1, fun _ _ => 0, .linear, fun _ _ => 1,
      some (fun _ y => if y = 0 then t else 0)⟩ : KPLayer 2) (fun _ y => if y = 0 then t else 0) (kpSigma none 1)
      oneCloud oneCloud 1 (fun _ _ => a) (0 : Fin 1) 0 d = if d = 0 then a * t else 0 := by
    intro d
    unfold kpOffset
    rw [oneCloud_nbrs, Finset.sum_singleton, Finset.sum_range_one, Finset.sum_range_one]
    have : norm2 (fun d : Fin 2 => (oneCloud.pts (0 : Fin 1) d - oneCloud.pts (0 : Fin 1) d) / 1 - 0) = 0 := by
      simp [norm2]
    dsimp only
    erw [this]
    by_cases hd : d = 0
    · subst hd
      simp [Interp.weight]
    · have hd' : d.val ≠ 0 := fun h => hd (Fin.ext h)
      simp [Interp.weight, hd, hd']
  simp only [hoff]
  have hn : norm2 (fun d : Fin 2 => (oneCloud.pts (0 : Fin 1) d - oneCloud.pts (0 : Fin 1) d) / 1 -
      (0 + if d = 0 then a * t else 0)) = |a * t| := by
    unfold norm2
    rw [Fin.sum_univ_two]
    simp [Real.sqrt_sq_eq_abs]
  erw [hn]
  simp [Interp.weight, kpSigma]

/-- **C149, linear interpolation is not differentiable** in the offset weights where a neighbour lies on a kernel point, the
situation of every point that is its own neighbour when the offset weights (or the features) are zero. -/
theorem C149_linear_differentiable_false : ¬ ∀ (L : KPLayer 2) (cin cout : Cloud (Fin 2 → ℝ)) (radius : ℝ),
    LayerOk cin cout radius (1 / 100) → L.nkp = L.nk → ∀ (W wo : ℝ → ℕ → ℕ → ℝ) (f : Fin cin.n → ℕ → ℝ),
    (∀ x o, Differentiable ℝ (fun t => W t x o)) → (∀ x y, Differentiable ℝ (fun t => wo t x y)) →
    ∀ out : ℝ → ℕ × (ℕ → ℕ → ℝ),
    (∀ t, (L.at (k := 0) W wo t).call .gpu (1 / 100) cin cout radius none f = .ok (out t)) →
    ∀ (c : Fin cout.n) (o : ℕ), DifferentiableAt ℝ (fun t => (out t).2 c.val o) 0 := by
  intro H
  choose out h1 h2 using fun t => kink_value 1 t
  have hd := H kinkLayer oneCloud oneCloud 1 oneCloud_ok rfl (fun _ _ _ => 1) (fun t _ y => if y = 0 then t else 0)
    (fun _ _ => 1) (fun _ _ => differentiable_const _)
    (fun x y => by by_cases hy : y = 0 <;> simp [hy]) (fun t => (1, out t)) h1 (0 : Fin 1) 0
  have e : (fun t => (out t) 0 0) =ᶠ[nhds 0] fun t => 1 - |t| := by
    filter_upwards [Ioo_mem_nhds (show (-1 : ℝ) < 0 by norm_num) (show (0 : ℝ) < 1 by norm_num)] with t ht
    rw [h2, one_mul, one_mul]
    exact max_eq_left (by have := abs_lt.2 ht; linarith)
  have h3 : DifferentiableAt ℝ (fun t : ℝ => 1 - |t|) 0 := (Filter.EventuallyEq.differentiableAt_iff e).1 hd
  have h4 : DifferentiableAt ℝ (fun t : ℝ => |t|) 0 := by
    have := (differentiableAt_const (1 : ℝ)).sub h3
    simpa using this
  exact not_differentiableAt_abs_zero h4

/-- **C149, deformable layers are not linear in the features** (rigid ones are, C41): twice the features move the
kernel point twice as far. -/
theorem C149_features_not_linear : ∃ (L : KPLayer 2) (c : Cloud (Fin 2 → ℝ)) (f : Fin c.n → ℕ → ℝ) (out out' : ℕ → ℕ → ℝ)
    (i : Fin c.n), L.call (k := 0) .gpu (1 / 100) c c 1 none f = .ok (c.n, out) ∧
    L.call (k := 0) .gpu (1 / 100) c c 1 none (fun p x => 2 * f p x) = .ok (c.n, out') ∧
    out' i.val 0 ≠ 2 * out i.val 0 := by
  obtain ⟨out, h1, h2⟩ := kink_value 1 (1 / 2)
  obtain ⟨out', h1', h2'⟩ := kink_value 2 (1 / 2)
  refine ⟨_, oneCloud, fun _ _ => 1, out, out', (0 : Fin 1), h1, ?_, ?_⟩
  · simp only [mul_one]
    exact h1'
  · change out' 0 0 ≠ 2 * out 0 0
    rw [h2, h2']
    norm_num

end PC
