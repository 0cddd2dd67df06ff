import Verif.Props.Layers3

/-!
# C116: convolutions whose radius is below the distance of the points

The notebook `Introduction.ipynb` (cell 36) compares `MCConv` with a tiny radius
to `Conv1x1`.  For a radius no two points of a batch element are closer than,
every convolution is a `Conv1x1` with one weight matrix for all points.
-/

set_option linter.unusedVariables false
set_option linter.unusedSectionVars false

namespace PC

section
variable {K : Type*} [Field K] [LinearOrder K] [IsStrictOrderedRing K] [FloorRing K] {k : ℕ}

/-- No two points of a batch element are closer than `radius`. -/
def Isolated {D : ℕ} (c : Cloud (Fin D → K)) (radius : K) : Prop :=
  ∀ p q, c.batch p = c.batch q → p ≠ q → radius * radius ≤ ∑ d, (c.pts p d - c.pts q d) * (c.pts p d - c.pts q d)

theorem nbrs_isolated {D : ℕ} {c : Cloud (Fin D → K)} {radius : K} (hr : 0 < radius) (h : Isolated c radius)
    (p : Fin c.n) : nbrs c c radius p = {p} := by
  ext q
  simp only [nbrs, Finset.mem_filter, Finset.mem_univ, true_and, Finset.mem_singleton, normLt]
  constructor
  · rintro ⟨h1, -, h2⟩
    by_contra hne
    exact absurd h2 (not_lt.2 (h q p h1 hne))
  · rintro rfl
    simp [hr]

theorem density_isolated {D : ℕ} (ker : K → K) {c : Cloud (Fin (D + 1) → K)} {radius : K} (hr : 0 < radius)
    (h : Isolated c radius) (bw : K) (p : Fin c.n) :
    density ker c (fun _ => bw) (fun _ => radius) p = ker 0 ^ (D + 1) / bw ^ (D + 1) := by
  unfold density
  have : Finset.univ.filter (fun q => c.batch q = c.batch p ∧
      normLt (fun d => c.pts q d - c.pts p d) radius) = {p} := nbrs_isolated hr h p
  rw [this]
  simp

/-- **C116, MCConv.** One weight matrix for all such clouds and radii. -/
theorem C116_mcconv (ker act : K → K) (L : MCLayer K) (bw : K) :
    ∃ w : ℕ → ℕ → K, ∀ (dev : Device) (eps : K) (c : Cloud (Fin (k + 2) → K)) (radius : K)
      (_ : LayerOk c c radius eps) (_ : Isolated c radius) (f : Fin c.n → ℕ → K) (out : Fin c.n → ℕ → K),
      L.call ker act dev eps c c radius bw f = .ok out → out = conv1x1 L.cin w (fun _ => 0) f := by
  refine ⟨fun ch o => ∑ hh ∈ Finset.range L.hid,
    mlpEval act (o / (L.cout / L.mlps)) (k + 2) L.layers (rowOf (fun _ : Fin (k + 2) => 0)) hh /
      (ker 0 ^ (k + 2) / bw ^ (k + 2)) *
      L.final (o / (L.cout / L.mlps)) (ch * L.hid + hh) (o % (L.cout / L.mlps)), ?_⟩
  intro dev eps c radius hok h f out hout
  funext p o
  rw [C41_mcconv_formula ker act dev eps L c c radius bw hok f out hout p o]
  unfold mcSpec conv1x1
  rw [nbrs_isolated hok.radius_pos h, Finset.sum_singleton, add_zero]
  refine Finset.sum_congr rfl (fun ch _ => ?_)
  rw [Finset.mul_sum]
  refine Finset.sum_congr rfl (fun hh _ => ?_)
  rw [density_isolated ker hok.radius_pos h]
  simp only [sub_self, zero_div, mul_assoc]

/-- **C116, PointConv.** The density is its own maximum. -/
theorem C116_pointconv (ker act : K → K) (hker : ∀ x, 0 < ker x) (dev : Device) (eps : K) (L : PCLayer K)
    (c : Cloud (Fin (k + 2) → K)) (radius bw : K) (hbw : 0 < bw) (hok : LayerOk c c radius eps)
    (h : Isolated c radius) (f : Fin c.n → ℕ → K) (out : Fin c.n → ℕ → K)
    (hout : L.call ker act dev eps c c radius bw f = .ok out) :
    out = conv1x1 L.cin (fun ch o => ∑ hh ∈ Finset.range L.hid,
      act (L.bias hh) / densityNet L.pw1 L.pb1 L.pw2 L.pb2 1 * L.weights (ch * L.hid + hh) o) (fun _ => 0) f := by
  funext p o
  rw [C41_pointconv_formula ker act dev eps L c c radius bw hok f out hout p o]
  unfold pcSpec conv1x1
  rw [nbrs_isolated hok.radius_pos h, Finset.sum_singleton, add_zero]
  refine Finset.sum_congr rfl (fun ch _ => ?_)
  rw [Finset.mul_sum]
  refine Finset.sum_congr rfl (fun hh _ => ?_)
  have hmax : maxOver {p} (density ker c (fun _ => bw) (fun _ => radius)) =
      ker 0 ^ (k + 2) / bw ^ (k + 2) := by
    unfold maxOver
    rw [dif_pos (Finset.singleton_nonempty p), Finset.sup'_singleton, density_isolated ker hok.radius_pos h]
  have h0 : rowOf (fun d => c.pts p d - c.pts p d) = fun _ : ℕ => (0 : K) := by
    funext i
    unfold rowOf gatherD
    simp
  rw [hmax, density_isolated ker hok.radius_pos h, div_self, h0]
  · simp only [zero_mul, Finset.sum_const_zero, zero_add, mul_assoc]
  · exact (div_pos (pow_pos (hker 0) _) (pow_pos hbw _)).ne'

end

/-- **C116, KPConv with rigid kernel points.** -/
theorem C116_kpconv_partial {k : ℕ} (dev : Device) (eps : ℝ) (L : KPLayer (k + 2)) (hoffs : L.offs = none)
    (c : Cloud (Fin (k + 2) → ℝ)) (radius : ℝ) (hok : LayerOk c c radius eps) (h : Isolated c radius)
    (influence : Option ℝ) (hcin : 0 < L.cin) (hnk : 0 < L.nk) (hkp : L.nkp = L.nk)
    (f : Fin c.n → ℕ → ℝ) (nh : Nbh k ℝ) (hl : layerNbh dev eps c c radius = .ok nh) :
    ∃ out, L.call dev eps c c radius influence f = .ok (c.n, out) ∧ ∀ (p : Fin c.n) (o : ℕ),
      out p.val o = conv1x1 L.cin (fun ch o => ∑ b ∈ Finset.range L.nk,
        L.interp.weight (norm2 (L.kp b)) (kpSigma influence radius) * L.weights (ch * L.nk + b) o)
          (fun _ => 0) f p o := by
  obtain ⟨out, h1, h2⟩ := C41_kpconv_formula dev eps L c c radius hok influence hcin hnk hkp f nh hl
  refine ⟨out, h1, fun p o => ?_⟩
  rw [h2 p o]
  unfold kpSpec conv1x1
  rw [nbrs_isolated hok.radius_pos h, Finset.sum_singleton, add_zero, hoffs]
  refine Finset.sum_congr rfl (fun ch _ => ?_)
  rw [Finset.mul_sum]
  refine Finset.sum_congr rfl (fun b _ => ?_)
  have : norm2 (fun d => (c.pts p d - c.pts p d) / radius - (L.kp b d + 0)) = norm2 (L.kp b) := by
    unfold norm2
    simp
  rw [this, mul_assoc]

/-- **C116, KPConv with any kernel points.** With deformable kernel points the
result is not linear in the features; it still only depends on the features of
the point itself. -/
theorem C116_kpconv_local {k : ℕ} (dev : Device) (eps : ℝ) (L : KPLayer (k + 2))
    (c : Cloud (Fin (k + 2) → ℝ)) (radius : ℝ) (hok : LayerOk c c radius eps) (h : Isolated c radius)
    (influence : Option ℝ) (hcin : 0 < L.cin) (hnk : 0 < L.nk) (hkp : L.nkp = L.nk)
    (f f' : Fin c.n → ℕ → ℝ) (nh : Nbh k ℝ) (hl : layerNbh dev eps c c radius = .ok nh) :
    ∃ out out', L.call dev eps c c radius influence f = .ok (c.n, out) ∧
      L.call dev eps c c radius influence f' = .ok (c.n, out') ∧
      ∀ p : Fin c.n, (∀ ch, f p ch = f' p ch) → ∀ o, out p.val o = out' p.val o := by
  obtain ⟨out, h1, h2⟩ := C41_kpconv_formula dev eps L c c radius hok influence hcin hnk hkp f nh hl
  obtain ⟨out', h1', h2'⟩ := C41_kpconv_formula dev eps L c c radius hok influence hcin hnk hkp f' nh hl
  refine ⟨out, out', h1, h1', fun p hp o => ?_⟩
  rw [h2 p o, h2' p o]
  unfold kpSpec kpOffset
  simp only [nbrs_isolated hok.radius_pos h, Finset.sum_singleton, hp]

/-- One point, one kernel point at the centre that is displaced by the feature of
the point. -/
noncomputable abbrev bendLayer : KPLayer 2 := ⟨1, 1, 1, fun _ _ => 0, .linear, fun _ _ => 1,
  some (fun _ y => if y = 0 then 1 else 0)⟩

noncomputable abbrev soloCloud : Cloud (Fin 2 → ℝ) := ⟨1, fun _ _ => 0, fun _ => 0, 1⟩

theorem soloCloud_ok : LayerOk soloCloud soloCloud (1 : ℝ) (1/100) ∧ Isolated soloCloud (1 : ℝ) := by
  refine ⟨⟨fun i => by simp, by norm_num, by norm_num⟩, ?_⟩
  intro p q _ hne
  exact absurd (Subsingleton.elim p q) hne

/-- The layer maps the feature `x` to `x * max (1 - |x|) 0`. -/
theorem bend_value (x : ℝ) : kpSpec bendLayer 1 soloCloud soloCloud 1 (fun _ _ => x) 0 0 = x * max (1 - |x|) 0 := by
  have hn := nbrs_isolated soloCloud_ok.1.radius_pos soloCloud_ok.2
  have h0 : norm2 (fun _ : Fin 2 => (0 : ℝ)) = 0 := by simp [norm2]
  have h1 : norm2 (fun d : Fin 2 => -(if d.val = 0 then x else 0)) = |x| := by
    simp [norm2, Real.sqrt_sq_eq_abs]
  unfold kpSpec kpOffset
  simp only [hn, Finset.sum_singleton, Finset.sum_range_one, sub_self, zero_div, zero_add, zero_sub, neg_zero, h0,
    Interp.weight, div_one, sub_zero, mul_one, zero_mul, max_eq_left zero_le_one, mul_ite, mul_zero, h1]

/-- **C116 fails for deformable kernel points**: the feature moves the kernel point,
so that feature 1/2 gives 1/4 but feature 1 gives 0; no weight matrix (and bias)
does that. -/
theorem C116_kpconv_false : ¬ ∀ (dev : Device) (eps : ℝ) (L : KPLayer 2) (c : Cloud (Fin 2 → ℝ)) (radius : ℝ)
    (_ : LayerOk c c radius eps) (_ : Isolated c radius) (influence : Option ℝ) (_ : 0 < L.cin) (_ : 0 < L.nk)
    (_ : L.nkp = L.nk), ∃ (w : ℕ → ℕ → ℝ) (bias : ℕ → ℝ), ∀ (f : Fin c.n → ℕ → ℝ) (m : ℕ) (out : ℕ → ℕ → ℝ),
      L.call dev eps c c radius influence f = .ok (m, out) →
      ∀ (p : Fin c.n) (o : ℕ), out p.val o = conv1x1 L.cin w bias f p o := by
  intro H
  obtain ⟨hok, hiso⟩ := soloCloud_ok
  obtain ⟨w, bias, hw⟩ := H .gpu (1/100) bendLayer soloCloud 1 hok hiso none (by norm_num) (by norm_num) rfl
  obtain ⟨nh, hl⟩ := layerNbh_gpu (1/100 : ℝ) soloCloud soloCloud 1 hok (by norm_num) (fun i => by simp)
  have key : ∀ x : ℝ, x * max (1 - |x|) 0 = x * w 0 0 + bias 0 := by
    intro x
    obtain ⟨out, h1, h2⟩ := C41_kpconv_formula .gpu (1/100) bendLayer soloCloud soloCloud 1 hok none
      (by norm_num) (by norm_num) rfl (fun _ _ => x) nh hl
    have h3 := hw _ _ _ h1 0 0
    rw [h2 0 0, show kpSigma none 1 = 1 from rfl, bend_value] at h3
    rw [h3]
    simp [conv1x1]
  have k0 := key 0
  have k1 := key (1/2)
  have k2 := key 1
  norm_num [abs_of_pos] at k0 k1 k2
  linarith

/-- Two points at distance five, radius five. -/
abbrev isoCloud : Cloud (Fin 2 → ℚ) := ⟨2, ![![0, 0], ![3, 4]], fun _ => 0, 1⟩

example : Isolated isoCloud (5 : ℚ) ∧ LayerOk isoCloud isoCloud (5 : ℚ) (1/100) := by
  refine ⟨?_, ?_, by norm_num, by norm_num⟩
  · unfold Isolated; decide +kernel
  · decide +kernel

end PC
