import Verif.Props.Layers3

/-!
# Properties C73 (point order), C74 (joint scaling), C75 (custom kernel points),
C77 (configurations accepted by the projection op)
-/

set_option linter.unusedVariables false
set_option linter.unusedSectionVars false

namespace PC

/-- The cloud with its points reordered: point `i` is the old point `σ i`. -/
def Cloud.relabel {α : Type*} (c : Cloud α) (σ : Equiv.Perm (Fin c.n)) : Cloud α :=
  { c with pts := fun i => c.pts (σ i), batch := fun i => c.batch (σ i) }

theorem relabel_pts {α : Type*} (c : Cloud α) (σ : Equiv.Perm (Fin c.n)) (p : Fin c.n) :
    (c.relabel σ).pts (σ.symm p : Fin c.n) = c.pts p :=
  congrArg c.pts (σ.apply_symm_apply p)

theorem relabel_batch {α : Type*} (c : Cloud α) (σ : Equiv.Perm (Fin c.n)) (p : Fin c.n) :
    (c.relabel σ).batch (σ.symm p : Fin c.n) = c.batch p :=
  congrArg c.batch (σ.apply_symm_apply p)

section
variable {K : Type*} [Field K] [LinearOrder K] [IsStrictOrderedRing K] [FloorRing K] {k : ℕ}

/-- Equal geometry up to relabelling and scaling gives equal densities. -/
theorem density_congr {D : ℕ} (ker : K → K) (c c' : Cloud (Fin (D + 1) → K)) (bw radii radii' : Fin (D + 1) → K)
    (e : Fin c.n ≃ Fin c'.n) (hb : ∀ p, c'.batch (e p) = c.batch p)
    (hn : ∀ p q, normLt (fun d => c'.pts (e q) d - c'.pts (e p) d) (radii' 0) ↔
      normLt (fun d => c.pts q d - c.pts p d) (radii 0))
    (hd : ∀ p q d, (c'.pts (e q) d - c'.pts (e p) d) / (bw d * radii' d) =
      (c.pts q d - c.pts p d) / (bw d * radii d)) (p : Fin c.n) :
    density ker c' bw radii' (e p) = density ker c bw radii p := by
  unfold density
  congr 1
  symm
  apply Finset.sum_equiv e
  · intro q
    simp only [Finset.mem_filter, Finset.mem_univ, true_and, hb, hn]
  · intro q _
    simp only [hd]

/-- Equal geometry gives equal `MCConv` values. -/
theorem mcSpec_congr (ker act : K → K) (L : MCLayer K) (cin cout cin' cout' : Cloud (Fin (k + 2) → K))
    (radius radius' bw : K) (f : Fin cin.n → ℕ → K) (f' : Fin cin'.n → ℕ → K)
    (c : Fin cout.n) (c' : Fin cout'.n) (e : Fin cin.n ≃ Fin cin'.n)
    (hn : ∀ p, e p ∈ nbrs cin' cout' radius' c' ↔ p ∈ nbrs cin cout radius c)
    (hd : ∀ p d, (cin'.pts (e p) d - cout'.pts c' d) / radius' = (cin.pts p d - cout.pts c d) / radius)
    (hden : ∀ p, density ker cin' (fun _ => bw) (fun _ => radius') (e p) =
      density ker cin (fun _ => bw) (fun _ => radius) p)
    (hf : ∀ p, f' (e p) = f p) (o : ℕ) :
    mcSpec ker act L cin' cout' radius' bw f' c' o = mcSpec ker act L cin cout radius bw f c o := by
  unfold mcSpec
  symm
  apply Finset.sum_equiv e
  · intro p; exact (hn p).symm
  · intro p _
    simp only [hd, hden, hf]

theorem maxOver_equiv {ι ι' : Type*} (s : Finset ι) (s' : Finset ι') (g : ι → K) (g' : ι' → K) (e : ι ≃ ι')
    (hs : ∀ p, e p ∈ s' ↔ p ∈ s) (hg : ∀ p, g' (e p) = g p) : maxOver s' g' = maxOver s g := by
  have hmap : s' = s.map e.toEmbedding := by
    ext q
    simp only [Finset.mem_map, Equiv.coe_toEmbedding]
    constructor
    · intro hq
      exact ⟨e.symm q, (hs _).mp (by simpa using hq), by simp⟩
    · rintro ⟨p, hp, rfl⟩
      exact (hs p).mpr hp
  subst hmap
  unfold maxOver
  by_cases h : s.Nonempty
  · have h' : (s.map e.toEmbedding).Nonempty := h.map
    rw [dif_pos h, dif_pos h', Finset.sup'_map]
    apply Finset.sup'_congr h rfl
    intro x _
    exact hg x
  · have h' : ¬ (s.map e.toEmbedding).Nonempty := by simpa using h
    rw [dif_neg h, dif_neg h']

/-- Equal geometry without scaling gives equal `PointConv` values. -/
theorem pcSpec_congr (ker act : K → K) (L : PCLayer K) (cin cout cin' cout' : Cloud (Fin (k + 2) → K))
    (radius bw : K) (f : Fin cin.n → ℕ → K) (f' : Fin cin'.n → ℕ → K)
    (c : Fin cout.n) (c' : Fin cout'.n) (e : Fin cin.n ≃ Fin cin'.n)
    (hn : ∀ p, e p ∈ nbrs cin' cout' radius c' ↔ p ∈ nbrs cin cout radius c)
    (hd : ∀ p d, (cin'.pts (e p) d - cout'.pts c' d) = (cin.pts p d - cout.pts c d))
    (hden : ∀ p, density ker cin' (fun _ => bw) (fun _ => radius) (e p) =
      density ker cin (fun _ => bw) (fun _ => radius) p)
    (hf : ∀ p, f' (e p) = f p) (o : ℕ) :
    pcSpec ker act L cin' cout' radius bw f' c' o = pcSpec ker act L cin cout radius bw f c o := by
  unfold pcSpec
  symm
  have hmax := maxOver_equiv (nbrs cin cout radius c) (nbrs cin' cout' radius c')
    (density ker cin (fun _ => bw) (fun _ => radius)) (density ker cin' (fun _ => bw) (fun _ => radius)) e hn hden
  rw [hmax]
  apply Finset.sum_equiv e
  · intro p; exact (hn p).symm
  · intro p _
    simp only [hd, hden, hf]

/-! ## C73 -/

theorem nbrs_relabel {D : ℕ} (cin cout : Cloud (Fin D → K)) (radius : K) (σ : Equiv.Perm (Fin cin.n))
    (τ : Equiv.Perm (Fin cout.n)) (p : Fin cin.n) (c : Fin cout.n) :
    (σ.symm p : Fin cin.n) ∈ (nbrs (cin.relabel σ) (cout.relabel τ) radius (τ.symm c) : Finset (Fin cin.n)) ↔
      p ∈ nbrs cin cout radius c := by
  unfold nbrs Cloud.relabel
  simp

theorem LayerOk.relabel {D : ℕ} {cin cout : Cloud (Fin D → K)} {radius eps : K} (hok : LayerOk cin cout radius eps)
    (σ : Equiv.Perm (Fin cin.n)) (τ : Equiv.Perm (Fin cout.n)) :
    LayerOk (cin.relabel σ) (cout.relabel τ) radius eps :=
  ⟨fun i => hok.valid (σ i), hok.radius_pos, hok.eps_pos⟩

theorem density_relabel {D : ℕ} (ker : K → K) (c : Cloud (Fin (D + 1) → K)) (bw radii : Fin (D + 1) → K)
    (σ : Equiv.Perm (Fin c.n)) (p : Fin c.n) :
    density ker (c.relabel σ) bw radii (σ.symm p : Fin c.n) = density ker c bw radii p := by
  apply density_congr ker c (c.relabel σ) bw radii radii σ.symm
  · intro p; exact relabel_batch c σ p
  · intro p q
    show normLt (fun d => c.pts (σ (σ.symm q)) d - c.pts (σ (σ.symm p)) d) (radii 0) ↔ _
    rw [σ.apply_symm_apply, σ.apply_symm_apply]
  · intro p q d
    show (c.pts (σ (σ.symm q)) d - c.pts (σ (σ.symm p)) d) / _ = _
    rw [σ.apply_symm_apply, σ.apply_symm_apply]

/-- **C73, MCConv.** Reordering the input points together with their features
and reordering the output points permutes the rows of the output. -/
theorem C73_mcconv_order (ker act : K → K) (dev dev' : Device) (eps : K) (L : MCLayer K)
    (cin cout : Cloud (Fin (k + 2) → K)) (radius bw : K) (hok : LayerOk cin cout radius eps)
    (σ : Equiv.Perm (Fin cin.n)) (τ : Equiv.Perm (Fin cout.n)) (f : Fin cin.n → ℕ → K)
    (out out' : Fin cout.n → ℕ → K)
    (h : L.call ker act dev eps cin cout radius bw f = .ok out)
    (h' : L.call ker act dev' eps (cin.relabel σ) (cout.relabel τ) radius bw (fun i => f (σ i)) = .ok out')
    (i : Fin cout.n) : out' i = out (τ i) := by
  funext o
  rw [C41_mcconv_formula ker act dev eps L cin cout radius bw hok f out h (τ i) o,
    C41_mcconv_formula ker act dev' eps L (cin.relabel σ) (cout.relabel τ) radius bw (hok.relabel σ τ) _ out' h' i o]
  apply mcSpec_congr ker act L cin cout (cin.relabel σ) (cout.relabel τ) radius radius bw _ _ (τ i) i σ.symm
  · intro p
    have := nbrs_relabel cin cout radius σ τ p (τ i)
    rw [Equiv.symm_apply_apply] at this
    exact this
  · intro p d
    show (cin.pts (σ (σ.symm p)) d - cout.pts (τ i) d) / radius = _
    rw [σ.apply_symm_apply]
  · intro p; exact density_relabel _ _ _ _ _ _
  · intro p; exact congrArg f (σ.apply_symm_apply p)

/-- **C73, PointConv.** -/
theorem C73_pointconv_order (ker act : K → K) (dev dev' : Device) (eps : K) (L : PCLayer K)
    (cin cout : Cloud (Fin (k + 2) → K)) (radius bw : K) (hok : LayerOk cin cout radius eps)
    (σ : Equiv.Perm (Fin cin.n)) (τ : Equiv.Perm (Fin cout.n)) (f : Fin cin.n → ℕ → K)
    (out out' : Fin cout.n → ℕ → K)
    (h : L.call ker act dev eps cin cout radius bw f = .ok out)
    (h' : L.call ker act dev' eps (cin.relabel σ) (cout.relabel τ) radius bw (fun i => f (σ i)) = .ok out')
    (i : Fin cout.n) : out' i = out (τ i) := by
  funext o
  rw [C41_pointconv_formula ker act dev eps L cin cout radius bw hok f out h (τ i) o,
    C41_pointconv_formula ker act dev' eps L (cin.relabel σ) (cout.relabel τ) radius bw (hok.relabel σ τ) _ out' h' i o]
  apply pcSpec_congr ker act L cin cout (cin.relabel σ) (cout.relabel τ) radius bw _ _ (τ i) i σ.symm
  · intro p
    have := nbrs_relabel cin cout radius σ τ p (τ i)
    rw [Equiv.symm_apply_apply] at this
    exact this
  · intro p d
    show (cin.pts (σ (σ.symm p)) d - cout.pts (τ i) d) = _
    rw [σ.apply_symm_apply]
  · intro p; exact density_relabel _ _ _ _ _ _
  · intro p; exact congrArg f (σ.apply_symm_apply p)

/-- **C73, KPConv** (rigid and deformable). -/
theorem C73_kpconv_order (dev dev' : Device) (eps : ℝ) (L : KPLayer (k + 2))
    (cin cout : Cloud (Fin (k + 2) → ℝ)) (radius : ℝ) (hok : LayerOk cin cout radius eps)
    (influence : Option ℝ) (hcin : 0 < L.cin) (hnk : 0 < L.nk) (hkp : L.nkp = L.nk)
    (σ : Equiv.Perm (Fin cin.n)) (τ : Equiv.Perm (Fin cout.n)) (f : Fin cin.n → ℕ → ℝ)
    (out out' : ℕ × (ℕ → ℕ → ℝ))
    (h : L.call dev eps cin cout radius influence f = .ok out)
    (h' : L.call dev' eps (cin.relabel σ) (cout.relabel τ) radius influence (fun i => f (σ i)) = .ok out')
    (i : Fin cout.n) (o : ℕ) : out'.2 i.val o = out.2 (τ i).val o := by
  rw [(kp_call_spec hok hcin hnk hkp h).2 (τ i) o]
  refine ((kp_call_spec (hok.relabel σ τ) hcin hnk hkp h').2 i o).trans ?_
  apply kpSpec_congr L _ cin cout (cin.relabel σ) (cout.relabel τ) radius radius _ _ (τ i) i σ.symm
  · intro p
    have := nbrs_relabel cin cout radius σ τ p (τ i)
    rw [Equiv.symm_apply_apply] at this
    exact this
  · intro p d
    show (cin.pts (σ (σ.symm p)) d - cout.pts (τ i) d) / radius = _
    rw [σ.apply_symm_apply]
  · intro p; exact congrArg f (σ.apply_symm_apply p)

/-! ## C74 -/

theorem LayerOk.scale {D : ℕ} {cin cout : Cloud (Fin D → K)} {radius eps : K} (hok : LayerOk cin cout radius eps)
    (s : K) (hs : 0 < s) : LayerOk (cin.scale s) (cout.scale s) (s * radius) eps :=
  ⟨fun i => hok.valid i, mul_pos hs hok.radius_pos, hok.eps_pos⟩

/-- **C74, MCConv is invariant under joint scaling** of both clouds and the
radius. -/
theorem C74_mcconv_scale (ker act : K → K) (dev dev' : Device) (eps : K) (L : MCLayer K)
    (cin cout : Cloud (Fin (k + 2) → K)) (radius bw s : K) (hs : 0 < s) (hok : LayerOk cin cout radius eps)
    (f : Fin cin.n → ℕ → K) (out out' : Fin cout.n → ℕ → K)
    (h : L.call ker act dev eps cin cout radius bw f = .ok out)
    (h' : L.call ker act dev' eps (cin.scale s) (cout.scale s) (s * radius) bw f = .ok out') :
    out' = out := by
  funext c o
  rw [C41_mcconv_formula ker act dev eps L cin cout radius bw hok f out h c o,
    C41_mcconv_formula ker act dev' eps L (cin.scale s) (cout.scale s) (s * radius) bw (hok.scale s hs) f out' h' c o]
  apply mcSpec_congr ker act L cin cout (cin.scale s) (cout.scale s) radius (s * radius) bw f f c c (Equiv.refl _)
  · intro p
    rw [← nbrs_scale cin cout radius s hs c]
    rfl
  · intro p d
    show (s * cin.pts p d - s * cout.pts c d) / (s * radius) = _
    rw [← mul_sub, mul_div_mul_left _ _ hs.ne']
  · intro p
    exact density_scale ker cin (fun _ => bw) (fun _ => radius) s hs p
  · intro p; rfl

/-- **C74, KPConv is invariant under joint scaling**; a given influence distance
scales along, the default needs no change. -/
theorem C74_kpconv_scale (dev dev' : Device) (eps : ℝ) (L : KPLayer (k + 2))
    (cin cout : Cloud (Fin (k + 2) → ℝ)) (radius s : ℝ) (hs : 0 < s) (hok : LayerOk cin cout radius eps)
    (influence : Option ℝ) (hcin : 0 < L.cin) (hnk : 0 < L.nk) (hkp : L.nkp = L.nk)
    (f : Fin cin.n → ℕ → ℝ) (out out' : ℕ × (ℕ → ℕ → ℝ))
    (h : L.call dev eps cin cout radius influence f = .ok out)
    (h' : L.call dev' eps (cin.scale s) (cout.scale s) (s * radius) (influence.map (s * ·)) f = .ok out')
    (c : Fin cout.n) (o : ℕ) : out'.2 c.val o = out.2 c.val o := by
  rw [(kp_call_spec hok hcin hnk hkp h).2 c o]
  refine ((kp_call_spec (hok.scale s hs) hcin hnk hkp h').2 c o).trans ?_
  have hsig : kpSigma (influence.map (s * ·)) (s * radius) = kpSigma influence radius := by
    cases influence with
    | none => rfl
    | some i =>
      simp only [kpSigma, Option.map_some]
      exact mul_div_mul_left _ _ hs.ne'
  rw [hsig]
  apply kpSpec_congr L _ cin cout (cin.scale s) (cout.scale s) radius (s * radius) f f c c (Equiv.refl _)
  · intro p
    rw [← nbrs_scale cin cout radius s hs c]
    rfl
  · intro p d
    show (s * cin.pts p d - s * cout.pts c d) / (s * radius) = _
    rw [← mul_sub, mul_div_mul_left _ _ hs.ne']
  · intro p; rfl

end

/-- Two points at distance 1. -/
abbrev twoPts : Cloud (Fin 2 → ℚ) :=
  ⟨2, fun i d => if i.val = 1 ∧ d.val = 0 then 1 else 0, fun _ => 0, 1⟩

/-- A PointConv layer with one hidden neuron, the identity as density transform
replaced by the constant 1. -/
abbrev pcWitness : PCLayer ℚ :=
  ⟨1, 1, fun _ _ => 1, fun _ => 0, fun _ _ => 1, fun _ => 0, fun _ => 0, fun _ => 0, 1⟩

/-- **C74, PointConv: refuted.** Scaling both clouds and the radius by 2 changes
the output (differences are not divided by the radius), already with one linear
hidden neuron. -/
theorem C74_pointconv_scale_false :
    ¬ (∀ (L : PCLayer ℚ) (ker act : ℚ → ℚ) (dev : Device) (cin cout : Cloud (Fin 2 → ℚ)) (radius bw s : ℚ),
        0 < s → LayerOk cin cout radius 1 →
        ∀ (f : Fin cin.n → ℕ → ℚ) (out out' : Fin cout.n → ℕ → ℚ),
          L.call (k := 0) ker act dev 1 cin cout radius bw f = .ok out →
          L.call (k := 0) ker act dev 1 (cin.scale s) (cout.scale s) (s * radius) bw f = .ok out' →
          out' = out) := by
  intro H
  have hok : LayerOk twoPts twoPts (2 : ℚ) 1 := ⟨by decide, by norm_num, by norm_num⟩
  have hok' := hok.scale 2 (by norm_num)
  obtain ⟨out, ho⟩ := C41_pointconv_returns (k := 0) (fun _ => (1 : ℚ)) id 1 pcWitness twoPts twoPts 2 1 hok
    (by decide) (by decide) (by decide) (fun _ _ => 1)
  obtain ⟨out', ho'⟩ := C41_pointconv_returns (k := 0) (fun _ => (1 : ℚ)) id 1 pcWitness (twoPts.scale 2)
    (twoPts.scale 2) (2 * 2) 1 hok' (by decide) (by decide) (by decide) (fun _ _ => 1)
  have heq := H pcWitness (fun _ => 1) id .gpu twoPts twoPts 2 1 2 (by norm_num) hok (fun _ _ => 1) out out' ho ho'
  have h1 := C41_pointconv_formula (k := 0) (fun _ => (1 : ℚ)) id .gpu 1 pcWitness twoPts twoPts 2 1 hok
    (fun _ _ => 1) out ho ⟨0, by decide⟩ 0
  have h2 := C41_pointconv_formula (k := 0) (fun _ => (1 : ℚ)) id .gpu 1 pcWitness (twoPts.scale 2) (twoPts.scale 2)
    (2 * 2) 1 hok' (fun _ _ => 1) out' ho' ⟨0, by decide⟩ 0
  have e1 : pcSpec (k := 0) (fun _ => (1 : ℚ)) id pcWitness twoPts twoPts 2 1 (fun _ _ => 1) ⟨0, by decide⟩ 0 = 1 := by
    decide +kernel
  have e2 : pcSpec (k := 0) (fun _ => (1 : ℚ)) id pcWitness (twoPts.scale 2) (twoPts.scale 2) (2 * 2) 1
      (fun _ _ => 1) ⟨0, by decide⟩ 0 = 2 := by decide +kernel
  rw [e1] at h1
  rw [e2] at h2
  have h3 : out' ⟨0, by decide⟩ 0 = out ⟨0, by decide⟩ 0 := congrFun (congrFun heq ⟨0, by decide⟩) 0
  have h4 : (2 : ℚ) = 1 := h2.symm.trans (h3.trans h1)
  norm_num at h4

end PC
