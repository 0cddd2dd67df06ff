import Verif.Props.Layers4

/-!
# Properties C75 (custom kernel points) and C76 (regularization loss)
-/

set_option linter.unusedVariables false
set_option linter.unusedSectionVars false

namespace PC

/-! ## C75 -/

/-- Kernel points beyond the configured number never enter the result. -/
theorem kpProject_extra {K : Type*} [Field K] {n m nf : ℕ} (cin nk nkp : ℕ) (hle : nk ≤ nkp)
    (pairs : List (Fin n × Fin m)) (w w' : Fin pairs.length → ℕ → K) (f : Fin nf → ℕ → K)
    (h : ∀ j b, b < nk → w j b = w' j b) :
    kpProject cin nk nkp pairs w f = kpProject cin nk nkp pairs w' f := by
  have hcols : min nk (nkp + padCols nk) = nk := by omega
  unfold kpProject
  simp only [hcols]
  split
  · rfl
  · rename_i hne
    rw [not_or] at hne
    have hnk : 0 < nk := by
      rcases Nat.eq_zero_or_pos nk with h0 | h0
      · rw [h0] at hne; simp at hne
      · exact h0
    congr 2
    funext r x
    split
    · unfold basisProj padRow
      have hb : (r * (cin * nk) + x) % nk < nk := Nat.mod_lt _ hnk
      have hb' : (r * (cin * nk) + x) % nk < nkp := by omega
      simp only [hb', if_true, h _ _ hb]
    · rfl

/-- **C75, surplus kernel points.** With more custom kernel points
than `num_kernel_points`, the surplus ones are ignored without any error: moving
them anywhere does not change the output. -/
theorem C75_surplus_ignored {D : ℕ} (L L' : KPLayer D) (sigma : ℝ) {n m nf : ℕ}
    (pairs : List (Fin n × Fin m)) (input : Fin pairs.length → Fin D → ℝ) (f : Fin nf → ℕ → ℝ)
    (hrigid : L.offs = none) (hmore : L.nk < L.nkp)
    (hL : L' = { L with kp := fun b => if b < L.nk then L.kp b else L'.kp b }) :
    L'.conv sigma pairs input f = L.conv sigma pairs input f := by
  rw [hL]
  unfold KPLayer.conv KPLayer.offsets
  simp only [hrigid]
  rw [kpProject_extra L.cin L.nk L.nkp hmore.le pairs _
    (fun j => L.weightRow sigma (input j) (fun _ _ => 0)) f]
  intro j b hb
  unfold KPLayer.weightRow
  simp only [hb, if_true]

/-- **C75, missing kernel points.** With fewer custom kernel points
than the padding makes up for, the layer raises unless the number of output
points happens to be a multiple that makes the reshape fit. -/
theorem C75_missing_raises {D : ℕ} (L : KPLayer D) (sigma : ℝ) {n m nf : ℕ}
    (pairs : List (Fin n × Fin m)) (input : Fin pairs.length → Fin D → ℝ) (f : Fin nf → ℕ → ℝ)
    (hrigid : L.offs = none) (hcin : 0 < L.cin) (hless : L.nkp + padCols L.nk < L.nk)
    (hm : ¬ L.nk ∣ m * (L.nkp + padCols L.nk)) :
    L.conv sigma pairs input f = .error .invalidArgument := by
  have hcols : min L.nk (L.nkp + padCols L.nk) = L.nkp + padCols L.nk := by omega
  unfold KPLayer.conv KPLayer.offsets
  simp only [hrigid]
  have : kpProject L.cin L.nk L.nkp pairs (fun j => L.weightRow sigma (input j) (fun _ _ => 0)) f =
      .error .invalidArgument := by
    unfold kpProject
    simp only [hcols]
    rw [if_pos]
    right
    intro h
    apply hm
    have h1 : L.cin * L.nk ∣ m * (L.cin * (L.nkp + padCols L.nk)) := Nat.dvd_of_mod_eq_zero h
    rw [show m * (L.cin * (L.nkp + padCols L.nk)) = L.cin * (m * (L.nkp + padCols L.nk)) by ring] at h1
    exact Nat.dvd_of_mul_dvd_mul_left hcin h1
  rw [this]

/-- With the default 15 and 3 custom kernel points a single output point already
raises; with 15 output points the call returns 4 rows instead of 15. -/
theorem C75_rows {D : ℕ} (L : KPLayer D) (sigma : ℝ) {n nf : ℕ}
    (pairs : List (Fin n × Fin 15)) (input : Fin pairs.length → Fin D → ℝ) (f : Fin nf → ℕ → ℝ)
    (hrigid : L.offs = none) (hcin : 0 < L.cin) (hnk : L.nk = 15) (hnkp : L.nkp = 3) :
    ∃ out, L.conv sigma pairs input f = .ok (4, out) := by
  unfold KPLayer.conv KPLayer.offsets
  simp only [hrigid]
  unfold kpProject
  have hp : padCols 15 = 1 := by decide
  have hdiv : 15 * (L.cin * 4) = 4 * (L.cin * 15) := by ring
  simp only [hnk, hnkp, hp]
  rw [if_neg]
  swap
  · rintro (h | h)
    · omega
    · apply h
      show 15 * (L.cin * 4) % (L.cin * 15) = 0
      rw [hdiv]; exact Nat.mul_mod_left _ _
  have : 15 * (L.cin * min 15 (3 + 1)) / (L.cin * 15) = 4 := by
    show 15 * (L.cin * 4) / (L.cin * 15) = 4
    rw [hdiv]
    exact Nat.mul_div_cancel _ (by omega)
  rw [this]
  exact ⟨_, rfl⟩

/-- A rigid layer with 15 configured and 3 custom kernel points. -/
noncomputable abbrev kpMismatch : KPLayer 2 := ⟨1, 15, 3, fun _ _ => 0, .linear, fun _ _ => 1, none⟩

/-- **C75, refuted.** Neither does every set of custom kernel points give one
output row per output point, nor does every given kernel point matter. -/
theorem C75_custom_kernel_points_false :
    ¬ (∀ (L : KPLayer 2) (sigma : ℝ) (n m nf : ℕ) (pairs : List (Fin n × Fin m))
        (input : Fin pairs.length → Fin 2 → ℝ) (f : Fin nf → ℕ → ℝ) (out : ℕ × (ℕ → ℕ → ℝ)),
        L.conv sigma pairs input f = .ok out → out.1 = m) ∧
      ¬ (∀ (L : KPLayer 2) (sigma : ℝ) (n m nf : ℕ) (pairs : List (Fin n × Fin m))
        (input : Fin pairs.length → Fin 2 → ℝ) (f : Fin nf → ℕ → ℝ),
        ∃ out, L.conv sigma pairs input f = .ok out) := by
  constructor
  · intro H
    obtain ⟨out, ho⟩ := C75_rows kpMismatch 1 (n := 1) (nf := 1) [] (fun j => j.elim0) (fun _ _ => 0)
      rfl (by norm_num) rfl rfl
    have := H kpMismatch 1 1 15 1 [] (fun j => j.elim0) (fun _ _ => 0) _ ho
    norm_num at this
  · intro H
    obtain ⟨out, ho⟩ := H kpMismatch 1 1 1 1 [] (fun j => j.elim0) (fun _ _ => 0)
    rw [C75_missing_raises kpMismatch 1 [] (fun j => j.elim0) (fun _ _ => 0) rfl (by norm_num)
      (by decide) (by decide)] at ho
    cases ho

/-- **C75, partial.** Missing: counts other than `num_kernel_points`.  With
matching counts every kernel point contributes, as in `kpSpec`. -/
theorem C75_matching_partial {k : ℕ} (dev : Device) (eps : ℝ) (L : KPLayer (k + 2))
    (cin cout : Cloud (Fin (k + 2) → ℝ)) (radius : ℝ) (hok : LayerOk cin cout radius eps)
    (influence : Option ℝ) (hcin : 0 < L.cin) (hnk : 0 < L.nk) (hkp : L.nkp = L.nk)
    (f : Fin cin.n → ℕ → ℝ) (out : ℕ × (ℕ → ℕ → ℝ))
    (h : L.call dev eps cin cout radius influence f = .ok out) :
    out.1 = cout.n ∧ ∀ (c : Fin cout.n) (o : ℕ),
      out.2 c.val o = kpSpec L (kpSigma influence radius) cin cout radius f c o :=
  kp_call_spec hok hcin hnk hkp h

/-! ## C76 -/

/-- Specification: displaced kernel point `b` at centre `c`. -/
noncomputable def kpPos {D : ℕ} (L : KPLayer D) (wo : ℕ → ℕ → ℝ) (sigma : ℝ) (cin cout : Cloud (Fin D → ℝ))
    (radius : ℝ) (f : Fin cin.n → ℕ → ℝ) (c : Fin cout.n) (b : ℕ) (d : Fin D) : ℝ :=
  L.kp b d + kpOffset L wo sigma cin cout radius f c b d

/-- Specification: squared distance of neighbour `p` to kernel point `b` of `c`,
in units of the influence distance. -/
noncomputable def kpFit {D : ℕ} (L : KPLayer D) (wo : ℕ → ℕ → ℝ) (sigma : ℝ) (cin cout : Cloud (Fin D → ℝ))
    (radius : ℝ) (f : Fin cin.n → ℕ → ℝ) (c : Fin cout.n) (b : ℕ) (p : Fin cin.n) : ℝ :=
  (norm2 (fun d => (cin.pts p d - cout.pts c d) / radius - kpPos L wo sigma cin cout radius f c b d) / sigma) ^ 2

/-- Specification: the repulsive loss. -/
noncomputable def kpRep {D : ℕ} (L : KPLayer D) (wo : ℕ → ℕ → ℝ) (sigma : ℝ) (cin cout : Cloud (Fin D → ℝ))
    (radius : ℝ) (f : Fin cin.n → ℕ → ℝ) : ℝ :=
  ∑ c : Fin cout.n, ∑ b ∈ Finset.range L.nk, ∑ b' ∈ Finset.range L.nk,
    if b = b' then 0 else L.interp.weight (norm2 (fun d =>
      kpPos L wo sigma cin cout radius f c b d - kpPos L wo sigma cin cout radius f c b' d)) sigma

/-- Minimum over the neighbours of a centre, default for empty neighbourhoods. -/
noncomputable def minOver {ι : Type*} (dflt : ℝ) (s : Finset ι) (g : ι → ℝ) : ℝ :=
  if h : s.Nonempty then s.inf' h g else dflt

theorem segMin_pairs {n m : ℕ} (dflt : ℝ) (pairs : List (Fin n × Fin m)) (P : Fin n → Fin m → ℝ) (c : Fin m) :
    (segMin (fun j : Fin pairs.length => P (pairs.get j).1 (pairs.get j).2)
      (fun j => (pairs.get j).2.val) c.val).getD dflt =
      minOver dflt (Finset.univ.filter (fun p => (p, c) ∈ pairs)) (fun p => P p c) := by
  unfold minOver
  split
  · rename_i hne
    have : segMin (fun j : Fin pairs.length => P (pairs.get j).1 (pairs.get j).2)
        (fun j => (pairs.get j).2.val) c.val =
        some ((Finset.univ.filter (fun p => (p, c) ∈ pairs)).inf' hne (fun p => P p c)) := by
      rw [segMin_eq_some]
      constructor
      · obtain ⟨p, hp, he⟩ := Finset.exists_mem_eq_inf' hne (fun p => P p c)
        simp only [Finset.mem_filter, Finset.mem_univ, true_and] at hp
        obtain ⟨j, hj⟩ := List.mem_iff_get.mp hp
        refine ⟨j, by rw [hj], ?_⟩
        rw [hj, he]
      · intro j hj
        have hc : (pairs.get j).2 = c := Fin.val_injective hj
        have hmem : (pairs.get j).1 ∈ Finset.univ.filter (fun p => (p, c) ∈ pairs) := by
          simp only [Finset.mem_filter, Finset.mem_univ, true_and]
          have : pairs.get j = ((pairs.get j).1, c) := Prod.ext rfl hc
          rw [← this]
          exact List.get_mem _ _
        rw [hc]
        exact Finset.inf'_le (fun p => P p c) hmem
    rw [this]
    rfl
  · rename_i hne
    have : segMin (fun j : Fin pairs.length => P (pairs.get j).1 (pairs.get j).2)
        (fun j => (pairs.get j).2.val) c.val = none := by
      rw [segMin_eq_none]
      intro j hj
      apply hne
      refine ⟨(pairs.get j).1, ?_⟩
      simp only [Finset.mem_filter, Finset.mem_univ, true_and]
      have : pairs.get j = ((pairs.get j).1, c) := Prod.ext rfl (Fin.val_injective hj)
      rw [← this]
      exact List.get_mem _ _
    rw [this]
    rfl

theorem regLoss_eq {D : ℕ} (L : KPLayer D) (wo : ℕ → ℕ → ℝ) (hwo : L.offs = some wo) (fmax sigma : ℝ) {n m : ℕ}
    (hcin : 0 < L.cin) (hnk : 0 < L.nk)
    (hkp : L.nkp = L.nk) (pairs : List (Fin n × Fin m)) (hnd : pairs.Nodup) (S : Fin m → Finset (Fin n))
    (hS : ∀ c, Finset.univ.filter (fun p => (p, c) ∈ pairs) = S c)
    (I : Fin n → Fin m → Fin D → ℝ) (f : Fin n → ℕ → ℝ) :
    L.regLoss fmax sigma pairs (fun j => I (pairs.get j).1 (pairs.get j).2) f = .ok (
      (∑ c, ∑ b ∈ Finset.range L.nk, minOver fmax (S c) (fun p =>
        (norm2 (fun d => I p c d - (L.kp b d + kpOffOf L sigma S I f c b d)) / sigma) ^ 2)) +
      ∑ c, ∑ b ∈ Finset.range L.nk, ∑ b' ∈ Finset.range L.nk,
        if b = b' then 0 else L.interp.weight (norm2 (fun d =>
          (L.kp b d + kpOffOf L sigma S I f c b d) - (L.kp b' d + kpOffOf L sigma S I f c b' d))) sigma) := by
  obtain ⟨wf, h1, h2⟩ := kpProject_matmul L.cin L.nk hcin hnk pairs hnd
    (fun p c => L.weightRow sigma (I p c) (fun _ _ => 0)) f wo
  have hofC : ∀ (c : Fin m) b d, ∑ x ∈ Finset.range (L.cin * L.nk), wf c.val x * wo x (b * D + d.val) =
      kpOffOf L sigma S I f c b d := by
    intro c b d
    rw [h2, hS]
    unfold kpOffOf
    simp only [hwo, KPLayer.weightRow, add_zero]
  have hoff : L.offsets sigma pairs (fun j => I (pairs.get j).1 (pairs.get j).2) f =
      .ok (fun j b d => kpOffOf L sigma S I f (pairs.get j).2 b d) := by
    unfold KPLayer.offsets
    simp only [hwo, hkp, ne_eq, not_true_eq_false, if_false]
    rw [h1]
    simp only [Except.ok.injEq]
    funext j b d
    exact hofC _ b d
  unfold KPLayer.regLoss
  simp only [hwo]
  rw [hoff, hkp, h1]
  simp only [hofC, Except.ok.injEq]
  congr 1
  apply Finset.sum_congr rfl
  intro c _
  apply Finset.sum_congr rfl
  intro b _
  rw [← hS c]
  exact segMin_pairs fmax pairs (fun p c =>
    (norm2 (fun d => I p c d - (L.kp b d + kpOffOf L sigma S I f c b d)) / sigma) ^ 2) c

/-- **C76, formula.** The regularization loss of a deformable layer is the sum
over output points and kernel points of the smallest squared distance to a
neighbour, plus the repulsive term; an output point without neighbours
contributes `fmax` per kernel point. -/
theorem C76_formula {k : ℕ} (dev : Device) (eps fmax : ℝ) (L : KPLayer (k + 2)) (wo : ℕ → ℕ → ℝ)
    (hwo : L.offs = some wo)
    (cin cout : Cloud (Fin (k + 2) → ℝ)) (radius : ℝ) (hok : LayerOk cin cout radius eps)
    (influence : Option ℝ) (hcin : 0 < L.cin) (hnk : 0 < L.nk) (hkp : L.nkp = L.nk)
    (f : Fin cin.n → ℕ → ℝ) (h : Nbh k ℝ) (hl : layerNbh dev eps cin cout radius = .ok h) :
    L.callRegLoss dev eps fmax cin cout radius influence f = .ok (
      (∑ c, ∑ b ∈ Finset.range L.nk, minOver fmax (nbrs cin cout radius c)
        (kpFit L wo (kpSigma influence radius) cin cout radius f c b)) +
      kpRep L wo (kpSigma influence radius) cin cout radius f) := by
  obtain ⟨nb, hnh, hf⟩ := layerNbh_eq hl
  unfold KPLayer.callRegLoss
  rw [hl]
  dsimp only
  subst hnh
  obtain ⟨h1, h2⟩ := layer_ids hok hf
  have hfin : ∀ (c : Fin cout.n), Finset.univ.filter (fun p : Fin cin.n => (p, c) ∈
      (⟨⟨cin, fun _ => radius, eps⟩, fun _ => radius, cout, false, nb⟩ : Nbh k ℝ).originalNeighIds) =
      nbrs cin cout radius c := by
    intro c
    ext p
    simp only [Finset.mem_filter, Finset.mem_univ, true_and]
    exact h1 p c
  have hmain := regLoss_eq L wo hwo fmax (kpSigma influence radius) hcin hnk hkp _ h2 (nbrs cin cout radius) hfin
    (fun p c d => (cin.pts p d - cout.pts c d) / radius) f
  have hoffOf : ∀ c b d, kpOffOf L (kpSigma influence radius) (nbrs cin cout radius)
      (fun p c d => (cin.pts p d - cout.pts c d) / radius) f c b d =
      kpOffset L wo (kpSigma influence radius) cin cout radius f c b d := by
    intro c b d
    unfold kpOffOf kpOffset
    simp only [hwo]
  simp only [hoffOf] at hmain
  refine Eq.trans ?_ hmain
  unfold Nbh.diffs
  simp only [gatherD_fin]

/-- **C76, rigid layers** have no regularization loss: the call raises. -/
theorem C76_rigid {k : ℕ} (dev : Device) (eps fmax : ℝ) (L : KPLayer (k + 2)) (hwo : L.offs = none)
    (cin cout : Cloud (Fin (k + 2) → ℝ)) (radius : ℝ) (influence : Option ℝ)
    (f : Fin cin.n → ℕ → ℝ) (h : Nbh k ℝ) (hl : layerNbh dev eps cin cout radius = .ok h) :
    L.callRegLoss dev eps fmax cin cout radius influence f = .error .attributeError := by
  unfold KPLayer.callRegLoss KPLayer.regLoss
  rw [hl]
  simp only [hwo]

theorem weight_nonneg (i : Interp) (v sigma : ℝ) : 0 ≤ i.weight v sigma := by
  cases i with
  | linear => exact le_max_right _ _
  | gaussian => exact (Real.exp_pos _).le

theorem minOver_nonneg {ι : Type*} (dflt : ℝ) (hd : 0 ≤ dflt) (s : Finset ι) (g : ι → ℝ) (hg : ∀ i, 0 ≤ g i) :
    0 ≤ minOver dflt s g := by
  unfold minOver
  split
  · exact (Finset.le_inf'_iff _ _).mpr (fun i _ => hg i)
  · exact hd

/-- **C76, the loss is non-negative.** -/
theorem C76_nonneg {k : ℕ} (dev : Device) (eps fmax : ℝ) (hfmax : 0 ≤ fmax) (L : KPLayer (k + 2)) (wo : ℕ → ℕ → ℝ)
    (hwo : L.offs = some wo)
    (cin cout : Cloud (Fin (k + 2) → ℝ)) (radius : ℝ) (hok : LayerOk cin cout radius eps)
    (influence : Option ℝ) (hcin : 0 < L.cin) (hnk : 0 < L.nk) (hkp : L.nkp = L.nk)
    (f : Fin cin.n → ℕ → ℝ) (h : Nbh k ℝ) (hl : layerNbh dev eps cin cout radius = .ok h) :
    ∃ x, L.callRegLoss dev eps fmax cin cout radius influence f = .ok x ∧ 0 ≤ x := by
  refine ⟨_, C76_formula dev eps fmax L wo hwo cin cout radius hok influence hcin hnk hkp f h hl, ?_⟩
  apply add_nonneg
  · exact Finset.sum_nonneg (fun c _ => Finset.sum_nonneg (fun b _ =>
      minOver_nonneg _ hfmax _ _ (fun p => sq_nonneg _)))
  · refine Finset.sum_nonneg (fun c _ => Finset.sum_nonneg (fun b _ => Finset.sum_nonneg (fun b' _ => ?_)))
    split
    · exact le_refl _
    · exact weight_nonneg _ _ _

/-- **C76, partial.** Missing: output points without neighbours.  If every output
point has a neighbour, the loss does not involve the largest float: each kernel
point contributes its smallest squared distance to a neighbour. -/
theorem C76_finite_partial {k : ℕ} (dev : Device) (eps fmax fmax' : ℝ) (L : KPLayer (k + 2)) (wo : ℕ → ℕ → ℝ)
    (hwo : L.offs = some wo)
    (cin cout : Cloud (Fin (k + 2) → ℝ)) (radius : ℝ) (hok : LayerOk cin cout radius eps)
    (influence : Option ℝ) (hcin : 0 < L.cin) (hnk : 0 < L.nk) (hkp : L.nkp = L.nk)
    (f : Fin cin.n → ℕ → ℝ) (h : Nbh k ℝ) (hl : layerNbh dev eps cin cout radius = .ok h)
    (hne : ∀ c : Fin cout.n, (nbrs cin cout radius c).Nonempty) :
    L.callRegLoss dev eps fmax cin cout radius influence f =
        L.callRegLoss dev eps fmax' cin cout radius influence f ∧
      L.callRegLoss dev eps fmax cin cout radius influence f = .ok (
        (∑ c, ∑ b ∈ Finset.range L.nk, (nbrs cin cout radius c).inf' (hne c)
          (kpFit L wo (kpSigma influence radius) cin cout radius f c b)) +
        kpRep L wo (kpSigma influence radius) cin cout radius f) := by
  have key : ∀ fm, L.callRegLoss dev eps fm cin cout radius influence f = .ok (
        (∑ c, ∑ b ∈ Finset.range L.nk, (nbrs cin cout radius c).inf' (hne c)
          (kpFit L wo (kpSigma influence radius) cin cout radius f c b)) +
        kpRep L wo (kpSigma influence radius) cin cout radius f) := by
    intro fm
    rw [C76_formula dev eps fm L wo hwo cin cout radius hok influence hcin hnk hkp f h hl]
    congr 2
    apply Finset.sum_congr rfl
    intro c _
    apply Finset.sum_congr rfl
    intro b _
    unfold minOver
    rw [dif_pos (hne c)]
  exact ⟨(key fmax).trans (key fmax').symm, key fmax⟩

/-- **C76, output points without neighbours**: one such point makes
the loss at least the largest float. -/
theorem C76_empty_blowup {k : ℕ} (dev : Device) (eps fmax : ℝ) (hfmax : 0 ≤ fmax) (L : KPLayer (k + 2))
    (wo : ℕ → ℕ → ℝ) (hwo : L.offs = some wo)
    (cin cout : Cloud (Fin (k + 2) → ℝ)) (radius : ℝ) (hok : LayerOk cin cout radius eps)
    (influence : Option ℝ) (hcin : 0 < L.cin) (hnk : 0 < L.nk) (hkp : L.nkp = L.nk)
    (f : Fin cin.n → ℕ → ℝ) (h : Nbh k ℝ) (hl : layerNbh dev eps cin cout radius = .ok h)
    (c : Fin cout.n) (hc : nbrs cin cout radius c = ∅) :
    ∃ x, L.callRegLoss dev eps fmax cin cout radius influence f = .ok x ∧ fmax ≤ x := by
  refine ⟨_, C76_formula dev eps fmax L wo hwo cin cout radius hok influence hcin hnk hkp f h hl, ?_⟩
  have h1 : fmax ≤ ∑ c, ∑ b ∈ Finset.range L.nk, minOver fmax (nbrs cin cout radius c)
      (kpFit L wo (kpSigma influence radius) cin cout radius f c b) := by
    calc fmax = minOver fmax (nbrs cin cout radius c)
            (kpFit L wo (kpSigma influence radius) cin cout radius f c 0) := by
          unfold minOver; rw [dif_neg (by rw [hc]; simp)]
      _ ≤ ∑ b ∈ Finset.range L.nk, minOver fmax (nbrs cin cout radius c)
            (kpFit L wo (kpSigma influence radius) cin cout radius f c b) :=
          Finset.single_le_sum (f := fun b => minOver fmax (nbrs cin cout radius c)
            (kpFit L wo (kpSigma influence radius) cin cout radius f c b))
            (fun b _ => minOver_nonneg _ hfmax _ _ (fun p => sq_nonneg _)) (Finset.mem_range.mpr hnk)
      _ ≤ _ := Finset.single_le_sum (f := fun c => ∑ b ∈ Finset.range L.nk, minOver fmax (nbrs cin cout radius c)
            (kpFit L wo (kpSigma influence radius) cin cout radius f c b))
            (fun c _ => Finset.sum_nonneg (fun b _ => minOver_nonneg _ hfmax _ _ (fun p => sq_nonneg _)))
            (Finset.mem_univ c)
  have h2 : 0 ≤ kpRep L wo (kpSigma influence radius) cin cout radius f := by
    refine Finset.sum_nonneg (fun c _ => Finset.sum_nonneg (fun b _ => Finset.sum_nonneg (fun b' _ => ?_)))
    split
    · exact le_refl _
    · exact weight_nonneg _ _ _
  linarith

/-- One input point and one output point 10 away from it. -/
abbrev farIn : Cloud (Fin 2 → ℝ) := ⟨1, fun _ _ => 0, fun _ => 0, 1⟩
abbrev farOut : Cloud (Fin 2 → ℝ) := ⟨1, fun _ _ => 10, fun _ => 0, 1⟩

theorem far_ok : LayerOk farIn farOut 1 1 := ⟨fun _ => Nat.one_pos, one_pos, one_pos⟩

theorem far_empty : nbrs farIn farOut 1 ⟨0, one_pos⟩ = ∅ := by
  rw [Finset.eq_empty_iff_forall_notMem]
  intro p hp
  simp only [nbrs, Finset.mem_filter, Finset.mem_univ, true_and, normLt] at hp
  norm_num at hp

/-- A deformable layer with one kernel point. -/
noncomputable abbrev kpDeform : KPLayer 2 := ⟨1, 1, 1, fun _ _ => 0, .linear, fun _ _ => 1, some (fun _ _ => 0)⟩

/-- **C76, refuted in general.** The loss is not bounded independently of the
largest float. -/
theorem C76_finite_false :
    ¬ (∀ (L : KPLayer 2) (wo : ℕ → ℕ → ℝ), L.offs = some wo → 0 < L.cin → 0 < L.nk → L.nkp = L.nk →
      ∀ (cin cout : Cloud (Fin 2 → ℝ)) (radius eps : ℝ), LayerOk cin cout radius eps →
      ∀ (f : Fin cin.n → ℕ → ℝ), ∃ bound, ∀ (fmax : ℝ), 0 ≤ fmax → ∀ x,
        L.callRegLoss (k := 0) .gpu eps fmax cin cout radius none f = .ok x → x ≤ bound) := by
  intro H
  obtain ⟨bound, hb⟩ := H kpDeform _ rfl one_pos one_pos rfl farIn farOut 1 1 far_ok (fun _ _ => 0)
  obtain ⟨h, hh⟩ := layerNbh_gpu (k := 0) 1 farIn farOut 1 far_ok Nat.one_pos (fun _ => Nat.one_pos)
  have hpos : (0 : ℝ) ≤ |bound| + 1 := by positivity
  obtain ⟨x, hx, hle⟩ := C76_empty_blowup .gpu 1 (|bound| + 1) hpos kpDeform _ rfl farIn farOut 1 far_ok none
    one_pos one_pos rfl (fun _ _ => 0) h hh ⟨0, one_pos⟩ far_empty
  have h1 := hb (|bound| + 1) hpos x hx
  have h2 := le_abs_self bound
  linarith

/-- Non-vacuity of `C76_finite_partial`: the same layer with the input cloud as
output cloud. -/
example : ∃ h : Nbh 0 ℝ, LayerOk farIn farIn 1 1 ∧ layerNbh (k := 0) .gpu 1 farIn farIn 1 = .ok h ∧
    ∀ c : Fin farIn.n, (nbrs farIn farIn 1 c).Nonempty := by
  have hok : LayerOk farIn farIn 1 1 := ⟨fun _ => Nat.one_pos, one_pos, one_pos⟩
  obtain ⟨h, hh⟩ := layerNbh_gpu (k := 0) 1 farIn farIn 1 hok Nat.one_pos (fun _ => Nat.one_pos)
  refine ⟨h, hok, hh, ?_⟩
  intro c
  refine ⟨⟨0, one_pos⟩, ?_⟩
  simp [nbrs, normLt]

end PC
