import Verif.Props.Layers2

/-!
# Properties C39, C40, C41 (KPConv)
-/

set_option linter.unusedVariables false
set_option linter.unusedSectionVars false

namespace PC

/-! ## C39 -/

/-- **C39, accepted sizes.** The padded number of columns is one the custom op
accepts exactly for at most 64 kernel points. -/
theorem C39_padded_count (nk : ℕ) : opBasisOk (nk + padCols nk) = true ↔ nk ≤ 64 := by
  unfold opBasisOk padCols
  constructor
  · intro h
    by_contra hn
    have h1 : ¬ nk < 8 := by omega
    have h2 : ¬ (nk > 8 ∧ nk < 16) := by omega
    have h3 : ¬ (nk > 16 ∧ nk < 32) := by omega
    have h4 : ¬ (nk > 32 ∧ nk < 64) := by omega
    simp only [h1, h2, h3, h4, if_false, Nat.add_zero, Bool.or_eq_true, beq_iff_eq] at h
    omega
  · intro h
    simp only [Bool.or_eq_true, beq_iff_eq]
    split_ifs <;> omega

/-- **C39, padding has no effect.** With as many kernel points as configured,
padding, projecting, slicing and reshaping gives one row per centre, whose entry
`ch * nk + b` is the unpadded projection. -/
theorem C39_padding {K : Type*} [Field K] {n m nf : ℕ} (cin nk : ℕ) (hcin : 0 < cin) (hnk : 0 < nk)
    (pairs : List (Fin n × Fin m)) (w : Fin pairs.length → ℕ → K) (f : Fin nf → ℕ → K) :
    ∃ wf, kpProject cin nk nk pairs w f = .ok (m, wf) ∧
      ∀ (c : Fin m) (ch b : ℕ), ch < cin → b < nk → wf c.val (ch * nk + b) = basisProj pairs w f c ch b := by
  have hpos : 0 < cin * nk := Nat.mul_pos hcin hnk
  have hcols : min nk (nk + padCols nk) = nk := by omega
  unfold kpProject
  simp only [hcols]
  rw [if_neg]
  swap
  · rintro (h | h)
    · omega
    · exact h (Nat.mul_mod_left _ _)
  rw [Nat.mul_div_cancel _ hpos]
  refine ⟨_, rfl, ?_⟩
  intro c ch b hch hb
  have hx : ch * nk + b < cin * nk := by
    calc ch * nk + b < ch * nk + nk := by omega
      _ = (ch + 1) * nk := by ring
      _ ≤ cin * nk := Nat.mul_le_mul_right _ hch
  have h1 : (c.val * (cin * nk) + (ch * nk + b)) / (cin * nk) = c.val := flat_div _ hx
  have h2 : (c.val * (cin * nk) + (ch * nk + b)) = (c.val * cin + ch) * nk + b := by ring
  have h3 : (c.val * (cin * nk) + (ch * nk + b)) / nk % cin = ch := by
    rw [h2, flat_div _ hb, flat_mod _ hch]
  have h4 : (c.val * (cin * nk) + (ch * nk + b)) % nk = b := by
    rw [h2, flat_mod _ hb]
  simp only [h1, h3, h4]
  rw [dif_pos c.isLt]
  unfold basisProj padRow
  simp only [hb, if_true]

/-! ## C40 -/

/-- **C40, linear weights.** -/
theorem C40_linear (v sigma : ℝ) (hs : 0 < sigma) (hv : 0 ≤ v) :
    0 ≤ Interp.linear.weight v sigma ∧ Interp.linear.weight v sigma ≤ 1 ∧
      (Interp.linear.weight v sigma = 1 ↔ v = 0) ∧
      (Interp.linear.weight v sigma = 0 ↔ sigma ≤ v) := by
  simp only [Interp.weight]
  have hdiv : 0 ≤ v / sigma := div_nonneg hv hs.le
  refine ⟨le_max_right _ _, max_le (by linarith) zero_le_one, ?_, ?_⟩
  · constructor
    · intro h
      rcases max_choice (1 - v / sigma) 0 with h' | h'
      · rw [h'] at h
        have : v / sigma = 0 := by linarith
        rcases div_eq_zero_iff.mp this with h0 | h0
        · exact h0
        · exact absurd h0 hs.ne'
      · rw [h'] at h; norm_num at h
    · rintro rfl; simp
  · rw [max_eq_right_iff, sub_nonpos, le_div_iff₀ hs, one_mul]

/-- **C40, Gaussian weights.** -/
theorem C40_gaussian (v sigma : ℝ) (hs : 0 < sigma) :
    0 < Interp.gaussian.weight v sigma ∧ Interp.gaussian.weight v sigma ≤ 1 ∧
      (Interp.gaussian.weight v sigma = 1 ↔ v = 0) := by
  unfold Interp.weight
  refine ⟨Real.exp_pos _, ?_, ?_⟩
  · rw [Real.exp_le_one_iff]
    nlinarith [sq_nonneg (v / (sigma / 3))]
  · rw [Real.exp_eq_one_iff, neg_eq_zero, sq_eq_zero_iff, div_eq_zero_iff]
    constructor
    · rintro (h | h)
      · exact h
      · exfalso; linarith
    · exact Or.inl

/-- **C40, weights decrease with the distance**; strictly inside the support. -/
theorem C40_monotone (i : Interp) (sigma : ℝ) (hs : 0 < sigma) (v w : ℝ) (hv : 0 ≤ v) (hvw : v ≤ w) :
    i.weight w sigma ≤ i.weight v sigma := by
  cases i with
  | linear =>
    unfold Interp.weight
    apply max_le_max_right
    have : v / sigma ≤ w / sigma := div_le_div_of_nonneg_right hvw hs.le
    linarith
  | gaussian =>
    unfold Interp.weight
    apply Real.exp_le_exp.mpr
    apply neg_le_neg
    have h3 : 0 < sigma / 3 := by linarith
    have : v / (sigma / 3) ≤ w / (sigma / 3) := div_le_div_of_nonneg_right hvw h3.le
    exact pow_le_pow_left₀ (div_nonneg hv h3.le) this 2

theorem C40_strict (i : Interp) (sigma : ℝ) (hs : 0 < sigma) (v w : ℝ) (hv : 0 ≤ v) (hvw : v < w)
    (hin : i = .linear → v < sigma) : i.weight w sigma < i.weight v sigma := by
  cases i with
  | linear =>
    have hin := hin rfl
    unfold Interp.weight
    have h1 : v / sigma < w / sigma := div_lt_div_of_pos_right hvw hs
    have h2 : v / sigma < 1 := (div_lt_one hs).mpr hin
    rw [max_lt_iff]
    constructor
    · exact lt_of_lt_of_le (by linarith) (le_max_left _ _)
    · exact lt_of_lt_of_le (by linarith) (le_max_left _ _)
  | gaussian =>
    unfold Interp.weight
    apply Real.exp_lt_exp.mpr
    apply neg_lt_neg
    have h3 : 0 < sigma / 3 := by linarith
    have : v / (sigma / 3) < w / (sigma / 3) := div_lt_div_of_pos_right hvw h3
    exact pow_lt_pow_left₀ this (div_nonneg hv h3.le) (by norm_num)

/-- The influence distance in the units of the point cloud is `sigma` times the
convolution radius, since differences are divided by the radius first.  A given
influence distance is used as it is. -/
theorem C40_given_influence (i radius : ℝ) (hr : 0 < radius) : kpSigma (some i) radius * radius = i := by
  unfold kpSigma
  exact div_mul_cancel₀ _ hr.ne'

/-- **C40, default: refuted.** The documented default influence distance is
`conv_radius / 2.5`; the code uses `conv_radius`, for every radius. -/
theorem C40_default_false :
    ¬ (∀ radius : ℝ, 0 < radius → kpSigma none radius * radius = radius / 2.5) ∧
      ∀ radius : ℝ, kpSigma none radius * radius = radius := by
  constructor
  · intro h
    have := h 1 one_pos
    norm_num [kpSigma] at this
  · intro r; simp [kpSigma]

/-! ## C41: KPConv -/

/-- Specification: kernel point offsets at centre `c` of the deformable layer. -/
noncomputable def kpOffset {D : ℕ} (L : KPLayer D) (wo : ℕ → ℕ → ℝ) (sigma : ℝ)
    (cin cout : Cloud (Fin D → ℝ)) (radius : ℝ) (f : Fin cin.n → ℕ → ℝ) (c : Fin cout.n) (b : ℕ) (d : Fin D) : ℝ :=
  ∑ p ∈ nbrs cin cout radius c, ∑ ch ∈ Finset.range L.cin, ∑ b' ∈ Finset.range L.nk,
    f p ch * L.interp.weight (norm2 (fun d => (cin.pts p d - cout.pts c d) / radius - L.kp b' d)) sigma *
      wo (ch * L.nk + b') (b * D + d.val)

/-- Specification of `KPConv`: every neighbour contributes to every kernel point
with the weight of its distance to the (possibly displaced) kernel point. -/
noncomputable def kpSpec {D : ℕ} (L : KPLayer D) (sigma : ℝ) (cin cout : Cloud (Fin D → ℝ)) (radius : ℝ)
    (f : Fin cin.n → ℕ → ℝ) (c : Fin cout.n) (o : ℕ) : ℝ :=
  ∑ p ∈ nbrs cin cout radius c, ∑ ch ∈ Finset.range L.cin, ∑ b ∈ Finset.range L.nk,
    f p ch * L.interp.weight (norm2 (fun d => (cin.pts p d - cout.pts c d) / radius - (L.kp b d +
        match L.offs with
        | none => 0
        | some wo => kpOffset L wo sigma cin cout radius f c b d))) sigma *
      L.weights (ch * L.nk + b) o

/-- Projection followed by a matrix product, as a sum over neighbours. -/
theorem kpProject_matmul {K : Type*} [Field K] {n m : ℕ} (cin nk : ℕ) (hcin : 0 < cin) (hnk : 0 < nk)
    (pairs : List (Fin n × Fin m)) (hnd : pairs.Nodup) (w : Fin n → Fin m → ℕ → K) (f : Fin n → ℕ → K)
    (W : ℕ → ℕ → K) :
    ∃ wf, kpProject cin nk nk pairs (fun j => w (pairs.get j).1 (pairs.get j).2) f = .ok (m, wf) ∧
      ∀ (c : Fin m) (o : ℕ), ∑ x ∈ Finset.range (cin * nk), wf c.val x * W x o =
        ∑ p ∈ Finset.univ.filter (fun p => (p, c) ∈ pairs), ∑ ch ∈ Finset.range cin,
          ∑ b ∈ Finset.range nk, f p ch * w p c b * W (ch * nk + b) o := by
  obtain ⟨wf, h1, h2⟩ := C39_padding cin nk hcin hnk pairs (fun j => w (pairs.get j).1 (pairs.get j).2) f
  refine ⟨wf, h1, ?_⟩
  intro c o
  rw [sum_range_flat, Finset.sum_comm' (t' := Finset.range cin) (s' := fun _ => Finset.univ.filter
    (fun p => (p, c) ∈ pairs)) (by intro x y; tauto)]
  apply Finset.sum_congr rfl
  intro ch hch
  rw [Finset.sum_comm' (t' := Finset.range nk) (s' := fun _ => Finset.univ.filter
    (fun p => (p, c) ∈ pairs)) (by intro x y; tauto)]
  apply Finset.sum_congr rfl
  intro b hb
  rw [h2 c ch b (Finset.mem_range.mp hch) (Finset.mem_range.mp hb), C38_basis_proj pairs hnd w, Finset.sum_mul]

/-- Offsets of the deformable variant in terms of kernel inputs `I p c`. -/
noncomputable def kpOffOf {D : ℕ} (L : KPLayer D) (sigma : ℝ) {n m : ℕ} (S : Fin m → Finset (Fin n))
    (I : Fin n → Fin m → Fin D → ℝ) (f : Fin n → ℕ → ℝ) (c : Fin m) (b : ℕ) (d : Fin D) : ℝ :=
  match L.offs with
  | none => 0
  | some wo => ∑ p ∈ S c, ∑ ch ∈ Finset.range L.cin, ∑ b' ∈ Finset.range L.nk,
      f p ch * L.interp.weight (norm2 (fun d => I p c d - L.kp b' d)) sigma *
        wo (ch * L.nk + b') (b * D + d.val)

theorem kpConv_eq {D : ℕ} (L : KPLayer D) (sigma : ℝ) {n m : ℕ} (hcin : 0 < L.cin) (hnk : 0 < L.nk)
    (hkp : L.nkp = L.nk) (pairs : List (Fin n × Fin m)) (hnd : pairs.Nodup) (S : Fin m → Finset (Fin n))
    (hS : ∀ c, Finset.univ.filter (fun p => (p, c) ∈ pairs) = S c)
    (I : Fin n → Fin m → Fin D → ℝ) (f : Fin n → ℕ → ℝ) :
    ∃ out, L.conv sigma pairs (fun j => I (pairs.get j).1 (pairs.get j).2) f = .ok (m, out) ∧
      ∀ (c : Fin m) (o : ℕ), out c.val o =
        ∑ p ∈ S c, ∑ ch ∈ Finset.range L.cin, ∑ b ∈ Finset.range L.nk,
          f p ch * L.interp.weight (norm2 (fun d => I p c d - (L.kp b d + kpOffOf L sigma S I f c b d))) sigma *
            L.weights (ch * L.nk + b) o := by
  have hoff : L.offsets sigma pairs (fun j => I (pairs.get j).1 (pairs.get j).2) f =
      .ok (fun j b d => kpOffOf L sigma S I f (pairs.get j).2 b d) := by
    unfold KPLayer.offsets kpOffOf
    cases hw : L.offs with
    | none => rfl
    | some wo =>
      simp only [hkp, ne_eq, not_true_eq_false, if_false]
      obtain ⟨wf, h1, h2⟩ := kpProject_matmul L.cin L.nk hcin hnk pairs hnd
        (fun p c => L.weightRow sigma (I p c) (fun _ _ => 0)) f wo
      rw [h1]
      simp only [Except.ok.injEq]
      funext j b d
      rw [h2, hS]
      simp only [KPLayer.weightRow, add_zero]
  unfold KPLayer.conv
  rw [hoff]
  dsimp only
  obtain ⟨wf, h1, h2⟩ := kpProject_matmul L.cin L.nk hcin hnk pairs hnd
    (fun p c => L.weightRow sigma (I p c) (fun b d => kpOffOf L sigma S I f c b d)) f L.weights
  rw [hkp, h1]
  refine ⟨_, rfl, ?_⟩
  intro c o
  rw [h2, hS]
  rfl

/-- **C41, KPConv.** With as many kernel points as configured, the layer returns
one row per output point, given by `kpSpec` (rigid and deformable), whenever its
neighbour search returns. -/
theorem C41_kpconv_formula {k : ℕ} (dev : Device) (eps : ℝ) (L : KPLayer (k + 2))
    (cin cout : Cloud (Fin (k + 2) → ℝ)) (radius : ℝ) (hok : LayerOk cin cout radius eps)
    (influence : Option ℝ) (hcin : 0 < L.cin) (hnk : 0 < L.nk) (hkp : L.nkp = L.nk)
    (f : Fin cin.n → ℕ → ℝ) (h : Nbh k ℝ) (hl : layerNbh dev eps cin cout radius = .ok h) :
    ∃ out, L.call dev eps cin cout radius influence f = .ok (cout.n, out) ∧
      ∀ (c : Fin cout.n) (o : ℕ),
        out c.val o = kpSpec L (kpSigma influence radius) cin cout radius f c o := by
  obtain ⟨nb, hnh, hf⟩ := layerNbh_eq hl
  unfold KPLayer.call
  rw [hl]
  dsimp only
  subst hnh
  obtain ⟨h1, h2⟩ := layer_ids hok hf
  have hfin : ∀ (c : Fin cout.n), Finset.univ.filter (fun p : Fin cin.n => (p, c) ∈
      (⟨⟨cin, fun _ => radius, eps⟩, fun _ => radius, cout, false, nb⟩ : Nbh k ℝ).originalNeighIds) =
      nbrs cin cout radius c := by
    intro c
    ext p
    simp only [Finset.mem_filter, Finset.mem_univ, true_and]
    exact h1 p c
  obtain ⟨out, ho, hv⟩ := kpConv_eq L (kpSigma influence radius) hcin hnk hkp _ h2 (nbrs cin cout radius) hfin
    (fun p c d => (cin.pts p d - cout.pts c d) / radius) f
  refine ⟨out, ?_, ?_⟩
  · rw [← ho]
    unfold Nbh.diffs
    simp only [gatherD_fin]
  · intro c o
    rw [hv]
    rfl

/-- **C41, KPConv returns on the GPU.** -/
theorem C41_kpconv_returns {k : ℕ} (eps : ℝ) (L : KPLayer (k + 2))
    (cin cout : Cloud (Fin (k + 2) → ℝ)) (radius : ℝ) (hok : LayerOk cin cout radius eps)
    (influence : Option ℝ) (hcin : 0 < L.cin) (hnk : 0 < L.nk) (hkp : L.nkp = L.nk)
    (hn : 0 < cout.n) (hB : ∀ i, cout.batch i < cin.B) (f : Fin cin.n → ℕ → ℝ) :
    ∃ out, L.call .gpu eps cin cout radius influence f = .ok (cout.n, out) := by
  obtain ⟨h, hh⟩ := layerNbh_gpu eps cin cout radius hok hn hB
  obtain ⟨out, ho, _⟩ := C41_kpconv_formula .gpu eps L cin cout radius hok influence hcin hnk hkp f h hh
  exact ⟨out, ho⟩

/-- If the call returns, the neighbour search did. -/
theorem kp_call_nbh {k : ℕ} {dev : Device} {eps : ℝ} {L : KPLayer (k + 2)}
    {cin cout : Cloud (Fin (k + 2) → ℝ)} {radius : ℝ} {influence : Option ℝ}
    {f : Fin cin.n → ℕ → ℝ} {out : ℕ × (ℕ → ℕ → ℝ)}
    (h : L.call dev eps cin cout radius influence f = .ok out) :
    ∃ nh, layerNbh dev eps cin cout radius = .ok nh := by
  unfold KPLayer.call at h
  cases hl : layerNbh dev eps cin cout radius with
  | error e => rw [hl] at h; simp at h
  | ok nh => exact ⟨nh, rfl⟩

/-- The formula in the form "if the call returns". -/
theorem kp_call_spec {k : ℕ} {dev : Device} {eps : ℝ} {L : KPLayer (k + 2)}
    {cin cout : Cloud (Fin (k + 2) → ℝ)} {radius : ℝ} (hok : LayerOk cin cout radius eps)
    {influence : Option ℝ} (hcin : 0 < L.cin) (hnk : 0 < L.nk) (hkp : L.nkp = L.nk)
    {f : Fin cin.n → ℕ → ℝ} {out : ℕ × (ℕ → ℕ → ℝ)}
    (h : L.call dev eps cin cout radius influence f = .ok out) :
    out.1 = cout.n ∧ ∀ (c : Fin cout.n) (o : ℕ),
      out.2 c.val o = kpSpec L (kpSigma influence radius) cin cout radius f c o := by
  obtain ⟨nh, hl⟩ := kp_call_nbh h
  obtain ⟨o, h1, h2⟩ := C41_kpconv_formula dev eps L cin cout radius hok influence hcin hnk hkp f nh hl
  rw [h] at h1
  simp only [Except.ok.injEq] at h1
  subst h1
  exact ⟨rfl, h2⟩

/-- Equal geometry (up to relabelling) gives equal specification values. -/
theorem kpSpec_congr {D : ℕ} (L : KPLayer D) (sigma : ℝ) (cin cout cin' cout' : Cloud (Fin D → ℝ))
    (radius radius' : ℝ) (f : Fin cin.n → ℕ → ℝ) (f' : Fin cin'.n → ℕ → ℝ) (c : Fin cout.n) (c' : Fin cout'.n)
    (e : Fin cin.n ≃ Fin cin'.n)
    (hn : ∀ p, e p ∈ nbrs cin' cout' radius' c' ↔ p ∈ nbrs cin cout radius c)
    (hd : ∀ p d, (cin'.pts (e p) d - cout'.pts c' d) / radius' = (cin.pts p d - cout.pts c d) / radius)
    (hf : ∀ p, f' (e p) = f p) (o : ℕ) :
    kpSpec L sigma cin' cout' radius' f' c' o = kpSpec L sigma cin cout radius f c o := by
  have key : ∀ (g' : Fin cin'.n → ℝ) (g : Fin cin.n → ℝ), (∀ p, g' (e p) = g p) →
      ∑ p ∈ nbrs cin' cout' radius' c', g' p = ∑ p ∈ nbrs cin cout radius c, g p := by
    intro g' g hg
    symm
    apply Finset.sum_equiv e
    · intro p; exact (hn p).symm
    · intro p _; exact (hg p).symm
  have hoff : ∀ wo b d, kpOffset L wo sigma cin' cout' radius' f' c' b d =
      kpOffset L wo sigma cin cout radius f c b d := by
    intro wo b d
    unfold kpOffset
    apply key
    intro p
    simp only [hd, hf]
  unfold kpSpec
  apply key
  intro p
  simp only [hd, hf, hoff]

/-- **C41, KPConv is translation invariant**, rigid or deformable. -/
theorem C41_kpconv_translation {k : ℕ} (dev dev' : Device) (eps : ℝ) (L : KPLayer (k + 2))
    (cin cout : Cloud (Fin (k + 2) → ℝ)) (radius : ℝ) (hok : LayerOk cin cout radius eps)
    (influence : Option ℝ) (hcin : 0 < L.cin) (hnk : 0 < L.nk) (hkp : L.nkp = L.nk)
    (t : Fin (k + 2) → ℝ) (f : Fin cin.n → ℕ → ℝ) (out out' : ℕ × (ℕ → ℕ → ℝ))
    (h : L.call dev eps cin cout radius influence f = .ok out)
    (h' : L.call dev' eps (cin.translate t) (cout.translate t) radius influence f = .ok out') :
    out'.1 = out.1 ∧ ∀ (c : Fin cout.n) (o : ℕ), out'.2 c.val o = out.2 c.val o := by
  obtain ⟨a1, a2⟩ := kp_call_spec hok hcin hnk hkp h
  obtain ⟨b1, b2⟩ := kp_call_spec (cin := cin.translate t) (cout := cout.translate t)
    ⟨hok.valid, hok.radius_pos, hok.eps_pos⟩ hcin hnk hkp h'
  refine ⟨b1.trans a1.symm, ?_⟩
  intro c o
  rw [a2 c o]
  refine (b2 c o).trans ?_
  apply kpSpec_congr L _ cin cout (cin.translate t) (cout.translate t) radius radius f f c c (Equiv.refl _)
  · intro p
    have := nbrs_translate cin cout radius t c
    rw [← this]
    rfl
  · intro p d
    show (cin.pts p d + t d - (cout.pts c d + t d)) / radius = _
    rw [add_sub_add_right_eq_sub]
  · intro p; rfl

/-- **C41, rigid KPConv is linear in the features.** -/
theorem C41_kpconv_linear {k : ℕ} (dev : Device) (eps : ℝ) (L : KPLayer (k + 2))
    (cin cout : Cloud (Fin (k + 2) → ℝ)) (radius : ℝ) (hok : LayerOk cin cout radius eps)
    (influence : Option ℝ) (hcin : 0 < L.cin) (hnk : 0 < L.nk) (hkp : L.nkp = L.nk) (hrigid : L.offs = none)
    (f g : Fin cin.n → ℕ → ℝ) (a b : ℝ) (outf outg out : ℕ × (ℕ → ℕ → ℝ))
    (hf : L.call dev eps cin cout radius influence f = .ok outf)
    (hg : L.call dev eps cin cout radius influence g = .ok outg)
    (h : L.call dev eps cin cout radius influence (fun p x => a * f p x + b * g p x) = .ok out)
    (c : Fin cout.n) (o : ℕ) : out.2 c.val o = a * outf.2 c.val o + b * outg.2 c.val o := by
  rw [(kp_call_spec hok hcin hnk hkp h).2, (kp_call_spec hok hcin hnk hkp hf).2,
    (kp_call_spec hok hcin hnk hkp hg).2]
  unfold kpSpec
  simp only [hrigid]
  simp only [Finset.mul_sum]
  simp only [← Finset.sum_add_distrib]
  refine Finset.sum_congr rfl (fun p _ => Finset.sum_congr rfl (fun ch _ => Finset.sum_congr rfl (fun hh _ => ?_)))
  ring

end PC
