import Verif.TfGrad
import Verif.Props.Deform
import Verif.Props.Layers5
import Verif.Props.Params

/-!
# C154: gradients of the deformable kernel point convolution

What automatic differentiation returns (KPConv.py:165-232, 317-429) and what it
should return: the derivatives, which are numbers.
-/

set_option linter.unusedVariables false
set_option linter.unusedSectionVars false

namespace PC

/-! ## Sums of floating point values -/

namespace Flt

theorem nan_add (a : Flt ℝ) : (nan : Flt ℝ) + a = nan := by
  change add nan a = nan; cases a <;> rfl

theorem add_nan (a : Flt ℝ) : a + (nan : Flt ℝ) = nan := by rw [add_comm, nan_add]

theorem fin_add (a b : ℝ) : (fin a : Flt ℝ) + fin b = fin (a + b) := rfl

theorem fin_mul (a b : ℝ) : (fin a : Flt ℝ).mul (fin b) = fin (a * b) := rfl

theorem zero_eq : (0 : Flt ℝ) = fin 0 := rfl

theorem mul_nan (a : Flt ℝ) : a.mul nan = nan := by cases a <;> rfl
theorem nan_mul (a : Flt ℝ) : mul nan a = nan := by cases a <;> rfl

theorem sum_fin {ι : Type*} (s : Finset ι) (f : ι → ℝ) : ∑ i ∈ s, (fin (f i) : Flt ℝ) = fin (∑ i ∈ s, f i) := by
  classical
  induction s using Finset.induction_on with
  | empty => rfl
  | insert a s ha ih => rw [Finset.sum_insert ha, Finset.sum_insert ha, ih, fin_add]

theorem sum_nan {ι : Type*} (s : Finset ι) (f : ι → Flt ℝ) (i : ι) (hi : i ∈ s) (h : f i = nan) : ∑ i ∈ s, f i = nan := by
  classical
  rw [← Finset.add_sum_erase s f hi, h, nan_add]

end Flt

/-! ## The rules -/

/-- The gradient of the norm of the zero vector is never a number, not even for the gradient zero. -/
theorem normGrad_zero {D : ℕ} (x : Fin D → ℝ) (hx : norm2 x = 0) (g : Flt ℝ) (d : Fin D) : normGrad x g d = .nan := by
  have hd : x d = 0 := by
    unfold norm2 at hx
    rw [Real.sqrt_eq_zero (Finset.sum_nonneg fun d _ => sq_nonneg _)] at hx
    have := (Finset.sum_eq_zero_iff_of_nonneg (fun d _ => sq_nonneg (x d))).1 hx d (Finset.mem_univ _)
    exact pow_eq_zero_iff (two_ne_zero) |>.1 this
  unfold normGrad sqrtGrad
  rw [hx, hd]
  dsimp only
  have key : (((Flt.fin (1 / 2)).mul g).div (.fin (0 : ℝ))).mul (.fin 0) = .nan := by
    have hm : (∃ a, (Flt.fin (1 / 2)).mul g = .fin a) ∨ (Flt.fin (1 / 2 : ℝ)).mul g = .nan ∨
        (Flt.fin (1 / 2 : ℝ)).mul g = .pinf ∨ (Flt.fin (1 / 2 : ℝ)).mul g = .ninf := by
      cases (Flt.fin (1 / 2)).mul g with
      | nan => exact .inr (.inl rfl)
      | pinf => exact .inr (.inr (.inl rfl))
      | ninf => exact .inr (.inr (.inr rfl))
      | fin a => exact .inl ⟨a, rfl⟩
    rcases hm with ⟨a, ha⟩ | ha | ha | ha
    · rw [ha]
      simp only [Flt.div, if_true, Flt.infOf]
      split
      · rfl
      · split <;> simp [Flt.mul, Flt.infOf]
    · rw [ha]; rfl
    · rw [ha]; simp [Flt.div, Flt.mul, Flt.infOf]
    · rw [ha]; simp [Flt.div, Flt.mul, Flt.infOf]
  rw [key, Flt.nan_add]

/-- Elsewhere it is the gradient times the unit vector. -/
theorem normGrad_fin {D : ℕ} (x : Fin D → ℝ) (hx : norm2 x ≠ 0) (g : ℝ) (d : Fin D) :
    normGrad x (.fin g) d = .fin (g * (x d / norm2 x)) := by
  unfold normGrad sqrtGrad
  simp only [Flt.mul, Flt.div, if_neg hx, Flt.fin_add]
  congr 1
  field_simp
  ring

/-- Derivative of the interpolation weights. -/
noncomputable def Interp.dWeight (i : Interp) (v sigma : ℝ) : ℝ :=
  match i with
  | .linear => if v / sigma < 1 then -1 / sigma else 0
  | .gaussian => -(2 * v / (sigma / 3) ^ 2) * Real.exp (-(v / (sigma / 3)) ^ 2)

theorem weightGrad_fin (i : Interp) (v sigma g : ℝ) (hs : sigma ≠ 0) :
    i.weightGrad v sigma (.fin g) = .fin (g * i.dWeight v sigma) := by
  cases i with
  | linear =>
    unfold Interp.weightGrad Interp.dWeight
    dsimp only
    by_cases h : v / sigma < 1
    · rw [if_pos (by linarith), if_pos h]
      simp only [Flt.neg, Flt.div, if_neg hs]
      congr 1
      ring
    · rw [if_neg (by linarith), if_neg h]
      simp only [Flt.neg, Flt.div, if_neg hs]
      congr 1
      ring
  | gaussian =>
    unfold Interp.weightGrad Interp.dWeight sqGrad
    have h3 : sigma / 3 ≠ 0 := by positivity
    simp only [Flt.mul, Flt.neg, Flt.div, if_neg h3]
    congr 1
    field_simp

theorem weight_hasDeriv (i : Interp) (v sigma : ℝ) (hs : sigma ≠ 0) (hi : i = .linear → v ≠ sigma) :
    HasDerivAt (fun v => i.weight v sigma) (i.dWeight v sigma) v := by
  cases i with
  | linear =>
    have hv := hi rfl
    unfold Interp.weight Interp.dWeight
    dsimp only
    have hl : HasDerivAt (fun v => 1 - v / sigma) (-1 / sigma) v := by
      have := ((hasDerivAt_id v).div_const sigma).const_sub 1
      simpa [neg_div] using this
    by_cases h : v / sigma < 1
    · rw [if_pos h]
      refine hl.congr_of_eventuallyEq ?_
      filter_upwards [continuousAt_const.eventually_lt hl.continuousAt (by linarith : (0 : ℝ) < 1 - v / sigma)] with t ht
      exact max_eq_left ht.le
    · rw [if_neg h]
      have hlt : 1 - v / sigma < 0 := by
        rcases lt_or_eq_of_le (not_lt.1 h) with h' | h'
        · linarith
        · exfalso
          apply hv
          field_simp at h'
          exact h'.symm
      refine (hasDerivAt_const v (0 : ℝ)).congr_of_eventuallyEq ?_
      filter_upwards [hl.continuousAt.eventually_lt continuousAt_const hlt] with t ht
      exact max_eq_right ht.le
  | gaussian =>
    unfold Interp.weight Interp.dWeight
    dsimp only
    have h1 := (((hasDerivAt_id' v).div_const (sigma / 3)).fun_pow 2).fun_neg.exp
    have h3 : sigma / 3 ≠ 0 := by positivity
    convert h1 using 1
    simp only [Nat.add_one_sub_one, pow_one, Nat.cast_ofNat]
    field_simp

theorem norm2_hasDeriv {D : ℕ} (x : ℝ → Fin D → ℝ) (x' : Fin D → ℝ) (t : ℝ) (hx : ∀ d, HasDerivAt (fun t => x t d) (x' d) t)
    (h0 : norm2 (x t) ≠ 0) : HasDerivAt (fun t => norm2 (x t)) (∑ d, x t d / norm2 (x t) * x' d) t := by
  have hs : ∑ d, x t d ^ 2 ≠ 0 := by
    intro hz; apply h0; unfold norm2; rw [hz, Real.sqrt_zero]
  have h1 : HasDerivAt (fun t => ∑ d, x t d ^ 2) (∑ d, 2 * x t d * x' d) t := by
    refine HasDerivAt.fun_sum fun d _ => ?_
    have h : HasDerivAt (fun t => x t d ^ 2) (((2 : ℕ) : ℝ) * x t d ^ (2 - 1) * x' d) t := (hx d).fun_pow 2
    have e : ((2 : ℕ) : ℝ) * x t d ^ (2 - 1) * x' d = 2 * x t d * x' d := by norm_num
    rw [← e]
    exact h
  have h2 := h1.sqrt hs
  unfold norm2 at h0 ⊢
  convert h2 using 1
  rw [Finset.sum_div]
  refine Finset.sum_congr rfl fun d _ => ?_
  field_simp

/-! ## The gradients as sums over neighbours -/

theorem sum_get {α M : Type*} [DecidableEq α] [AddCommMonoid M] (l : List α) (hnd : l.Nodup) (F : α → M) :
    ∑ j : Fin l.length, F (l.get j) = ∑ x ∈ l.toFinset, F x := by
  refine Finset.sum_bij (fun j _ => l.get j) ?_ ?_ ?_ ?_
  · intro j _; simp
  · intro a _ b _ h; exact (List.nodup_iff_injective_get.1 hnd) h
  · intro x hx
    obtain ⟨j, hj⟩ := List.mem_iff_get.1 (List.mem_toFinset.1 hx)
    exact ⟨j, Finset.mem_univ _, hj⟩
  · intro j _; rfl

theorem sum_pairs {M : Type*} [AddCommMonoid M] {n m : ℕ} (pairs : List (Fin n × Fin m)) (hnd : pairs.Nodup)
    (S : Fin m → Finset (Fin n)) (hS : ∀ p c, (p, c) ∈ pairs ↔ p ∈ S c) (F : Fin n → Fin m → M) :
    ∑ j : Fin pairs.length, F (pairs.get j).1 (pairs.get j).2 = ∑ c, ∑ p ∈ S c, F p c := by
  rw [sum_get pairs hnd (fun x => F x.1 x.2)]
  rw [Finset.sum_sigma']
  refine Finset.sum_bij (fun x _ => ⟨x.2, x.1⟩) ?_ ?_ ?_ ?_
  · intro x hx
    simp only [Finset.mem_sigma, Finset.mem_univ, true_and]
    exact (hS _ _).1 (List.mem_toFinset.1 hx)
  · rintro ⟨a, b⟩ _ ⟨c, d⟩ _ h
    simp only [Sigma.mk.injEq] at h
    obtain ⟨rfl, h⟩ := h
    rw [eq_of_heq h]
  · rintro ⟨c, p⟩ hx
    simp only [Finset.mem_sigma, Finset.mem_univ, true_and] at hx
    exact ⟨(p, c), List.mem_toFinset.2 ((hS p c).2 hx), rfl⟩
  · intro x _; rfl

section
variable {D n m : ℕ} (L : KPLayer D) (sigma : ℝ) (S : Fin m → Finset (Fin n)) (I : Fin n → Fin m → Fin D → ℝ)
  (f : Fin n → ℕ → ℝ) (no : ℕ) (g : ℕ → ℕ → ℝ)

/-- From the displaced kernel point `b` of the centre `c` to the neighbour `p`. -/
noncomputable def kgX (p : Fin n) (c : Fin m) (b : ℕ) (d : Fin D) : ℝ :=
  I p c d - (L.kp b d + kpOffOf L sigma S I f c b d)

/-- Derivative of the loss `Σ g * output` in the weight of the pair `(p, c)` and kernel point `b`. -/
noncomputable def kgW (p : Fin n) (c : Fin m) (b : ℕ) : ℝ :=
  ∑ ch ∈ Finset.range L.cin, f p ch * ∑ o ∈ Finset.range no, g c.val o * L.weights (ch * L.nk + b) o

/-- Weight of the pair `(p, c)` for the kernel point `b` that is not displaced. -/
noncomputable def kgW1 (p : Fin n) (c : Fin m) (b : ℕ) : ℝ := L.interp.weight (norm2 (fun d => I p c d - L.kp b d)) sigma

/-- What automatic differentiation passes on to the offset of kernel point `b` of centre `c`. -/
noncomputable def kgOff (c : Fin m) (b : ℕ) (d : Fin D) : Flt ℝ :=
  ∑ p ∈ S c, (normGrad (kgX L sigma S I f p c b)
    (L.interp.weightGrad (norm2 (kgX L sigma S I f p c b)) sigma (.fin (kgW L f no g p c b))) d).neg

theorem offFromDist_eq (pairs : List (Fin n × Fin m)) (hnd : pairs.Nodup)
    (hS : ∀ p c, (p, c) ∈ pairs ↔ p ∈ S c) (pos : Fin m → ℕ → Fin D → ℝ) (u : Fin n → Fin m → ℕ → Flt ℝ)
    (c : Fin m) (b : ℕ) (d : Fin D) :
    offFromDist pairs (fun j => I (pairs.get j).1 (pairs.get j).2) pos
      (fun j b => u (pairs.get j).1 (pairs.get j).2 b) c b d =
      ∑ p ∈ S c, (normGrad (fun d => I p c d - pos c b d) (u p c b) d).neg := by
  unfold offFromDist
  rw [sum_pairs pairs hnd S hS (fun p c' => if c' = c then
    (normGrad (fun d => I p c' d - pos c' b d) (u p c' b) d).neg else 0)]
  rw [Finset.sum_eq_single c]
  · simp
  · intro c' _ hc'
    simp [hc']
  · simp

theorem sum_point {M : Type*} [AddCommMonoid M] (pairs : List (Fin n × Fin m)) (hnd : pairs.Nodup)
    (hS : ∀ p c, (p, c) ∈ pairs ↔ p ∈ S c) (F : Fin n → Fin m → M) (p : Fin n) :
    (∑ j : Fin pairs.length, if (pairs.get j).1.val = p.val then F (pairs.get j).1 (pairs.get j).2 else 0) =
      ∑ c, if p ∈ S c then F p c else 0 := by
  rw [sum_pairs pairs hnd S hS (fun q c => if q.val = p.val then F q c else 0)]
  refine Finset.sum_congr rfl fun c _ => ?_
  by_cases hp : p ∈ S c
  · rw [if_pos hp, Finset.sum_eq_single p]
    · simp
    · intro q _ hq
      rw [if_neg (fun h => hq (Fin.ext h))]
    · intro h; exact absurd hp h
  · rw [if_neg hp]
    refine Finset.sum_eq_zero fun q hq => ?_
    rw [if_neg]
    intro h
    obtain rfl : q = p := Fin.ext h
    exact hp hq

theorem offGradRep_nan (pos : Fin m → ℕ → Fin D → ℝ) (c : Fin m) (b : ℕ) (hb : b < L.nk) (d : Fin D) :
    L.offGradRep sigma pos c b d = .nan := by
  unfold KPLayer.offGradRep
  dsimp only
  rw [Flt.sum_nan _ _ b (Finset.mem_range.2 hb), Flt.nan_add]
  apply normGrad_zero
  simp [norm2]

theorem offGrads_eq (hD : 0 < D) (wo : ℕ → ℕ → ℝ) (hwo : L.offs = some wo) (hcin : 0 < L.cin) (hnk : 0 < L.nk)
    (hkp : L.nkp = L.nk) (pairs : List (Fin n × Fin m)) (hnd : pairs.Nodup)
    (hS : ∀ p c, (p, c) ∈ pairs ↔ p ∈ S c) :
    ∃ G, L.offGrads hD sigma pairs (fun j => I (pairs.get j).1 (pairs.get j).2) f no g = .ok G ∧
      (∀ ch < L.cin, ∀ b' < L.nk, ∀ (b : ℕ) (d : Fin D), G.conv (ch * L.nk + b') (b * D + d.val) =
        ∑ c, (Flt.fin (∑ p ∈ S c, f p ch * kgW1 L sigma I p c b')).mul (kgOff L sigma S I f no g c b d)) ∧
      (∀ (p : Fin n) (ch : ℕ), G.convFeat p.val ch =
        .fin (∑ c, if p ∈ S c then ∑ b ∈ Finset.range L.nk, L.interp.weight (norm2 (kgX L sigma S I f p c b)) sigma *
          ∑ o ∈ Finset.range no, g c.val o * L.weights (ch * L.nk + b) o else 0) +
        ∑ c, if p ∈ S c then ∑ b ∈ Finset.range L.nk, (Flt.fin (kgW1 L sigma I p c b)).mul
          (∑ b' ∈ Finset.range L.nk, ∑ d : Fin D, (kgOff L sigma S I f no g c b' d).mul
            (.fin (wo (ch * L.nk + b) (b' * D + d.val)))) else 0) ∧
      (0 < m → ∀ (r b : ℕ) (d : Fin D), b < L.nk → G.reg r (b * D + d.val) = .nan) ∧
      (∀ (p : Fin n) (c : Fin m), p ∈ S c → ∀ ch, G.regFeat p.val ch = .nan) := by
  have hS' : ∀ c, Finset.univ.filter (fun p => (p, c) ∈ pairs) = S c := by
    intro c; ext p; simp [hS]
  obtain ⟨wf, h1, h2⟩ := C39_padding L.cin L.nk hcin hnk pairs
    (fun j => L.weightRow sigma (I (pairs.get j).1 (pairs.get j).2) (fun _ _ => 0)) f
  obtain ⟨wf', h1', h2'⟩ := kpProject_matmul L.cin L.nk hcin hnk pairs hnd
    (fun p c => L.weightRow sigma (I p c) (fun _ _ => 0)) f wo
  obtain rfl : wf = wf' := by
    have := h1.symm.trans h1'
    simpa using this
  have hofC : ∀ (c : Fin m) b d, ∑ x ∈ Finset.range (L.cin * L.nk), wf c.val x * wo x (b * D + d.val) =
      kpOffOf L sigma S I f c b d := by
    intro c b d
    rw [h2', hS']
    unfold kpOffOf
    simp only [hwo, KPLayer.weightRow, add_zero]
  have hwf : ∀ (c : Fin m) (ch b : ℕ), ch < L.cin → b < L.nk →
      wf c.val (ch * L.nk + b) = ∑ p ∈ S c, f p ch * kgW1 L sigma I p c b := by
    intro c ch b hch hb
    rw [h2 c ch b hch hb]
    rw [C38_basis_proj pairs hnd (fun p c => L.weightRow sigma (I p c) (fun _ _ => 0)), hS']
    simp only [KPLayer.weightRow, add_zero, kgW1]
  unfold KPLayer.offGrads
  simp only [hwo, hkp, ne_eq, not_true_eq_false, if_false]
  rw [h1]
  simp only [hofC]
  have hconv : ∀ c b d, offFromDist pairs (fun j => I (pairs.get j).1 (pairs.get j).2)
      (fun c b d => L.kp b d + kpOffOf L sigma S I f c b d)
      (L.distGradConv sigma pairs (fun j => I (pairs.get j).1 (pairs.get j).2)
        (fun c b d => L.kp b d + kpOffOf L sigma S I f c b d) f no g) c b d = kgOff L sigma S I f no g c b d := by
    intro c b d
    have e : L.distGradConv sigma pairs (fun j => I (pairs.get j).1 (pairs.get j).2)
        (fun c b d => L.kp b d + kpOffOf L sigma S I f c b d) f no g = fun j b =>
        L.interp.weightGrad (norm2 (kgX L sigma S I f (pairs.get j).1 (pairs.get j).2 b)) sigma
          (.fin (kgW L f no g (pairs.get j).1 (pairs.get j).2 b)) := by
      funext j b
      unfold KPLayer.distGradConv kgW kgX
      simp only [gatherD_fin]
    rw [e]
    exact offFromDist_eq S I pairs hnd hS _ (fun p c b =>
      L.interp.weightGrad (norm2 (kgX L sigma S I f p c b)) sigma (.fin (kgW L f no g p c b))) c b d
  refine ⟨_, rfl, ?_, ?_, ?_, ?_⟩
  · intro ch hch b' hb' b d
    dsimp only
    unfold gradOffWeights
    refine Finset.sum_congr rfl fun c _ => ?_
    have e1 : (b * D + d.val) / D = b := by
      rw [Nat.mul_comm, Nat.mul_add_div hD, Nat.div_eq_of_lt d.isLt, Nat.add_zero]
    have e2 : (⟨(b * D + d.val) % D, Nat.mod_lt _ hD⟩ : Fin D) = d := by
      apply Fin.ext
      simp [Nat.mod_eq_of_lt d.isLt]
    rw [e1, e2, hwf c ch b' hch hb', hconv]
  · intro p ch
    dsimp only
    congr 1
    · congr 1
      exact sum_point S pairs hnd hS (fun p c => ∑ b ∈ Finset.range L.nk, L.interp.weight (norm2 (kgX L sigma S I f p c b)) sigma *
          ∑ o ∈ Finset.range no, g c.val o * L.weights (ch * L.nk + b) o) p
    · unfold featFromOff
      simp only [hconv, KPLayer.weightRow, add_zero]
      exact sum_point S pairs hnd hS (fun p c => ∑ b ∈ Finset.range L.nk, (Flt.fin (kgW1 L sigma I p c b)).mul
          (∑ b' ∈ Finset.range L.nk, ∑ d : Fin D, (kgOff L sigma S I f no g c b' d).mul
            (.fin (wo (ch * L.nk + b) (b' * D + d.val))))) p
  · intro hm r b d hb
    dsimp only
    unfold gradOffWeights
    refine Flt.sum_nan _ _ ⟨0, hm⟩ (Finset.mem_univ _) ?_
    have e1 : (b * D + d.val) / D = b := by
      rw [Nat.mul_comm, Nat.mul_add_div hD, Nat.div_eq_of_lt d.isLt, Nat.add_zero]
    rw [e1]
    dsimp only
    rw [offGradRep_nan L sigma _ _ b hb, Flt.add_nan, Flt.mul_nan]
  · intro p c hp ch
    dsimp only
    unfold featFromOff
    obtain ⟨j, hj⟩ := List.mem_iff_get.1 ((hS p c).2 hp)
    refine Flt.sum_nan _ _ j (Finset.mem_univ _) ?_
    rw [hj, if_pos rfl]
    refine Flt.sum_nan _ _ 0 (Finset.mem_range.2 hnk) ?_
    rw [Flt.sum_nan _ _ 0 (Finset.mem_range.2 hnk), Flt.mul_nan]
    refine Flt.sum_nan _ _ ⟨0, hD⟩ (Finset.mem_univ _) ?_
    dsimp only
    rw [offGradRep_nan L sigma _ _ 0 hnk, Flt.add_nan, Flt.nan_mul]

end

/-! ## The gradients of a call -/

section
variable {k : ℕ}

/-- The scaled difference between the point `p` and the centre `c`, the input of the kernel. -/
noncomputable def kgIn (cin cout : Cloud (Fin (k + 2) → ℝ)) (radius : ℝ) (p : Fin cin.n) (c : Fin cout.n)
    (d : Fin (k + 2)) : ℝ := (cin.pts p d - cout.pts c d) / radius

theorem kpOffOf_eq (L : KPLayer (k + 2)) (wo : ℕ → ℕ → ℝ) (hwo : L.offs = some wo) (sigma : ℝ)
    (cin cout : Cloud (Fin (k + 2) → ℝ)) (radius : ℝ) (f : Fin cin.n → ℕ → ℝ) (c : Fin cout.n) (b : ℕ) (d : Fin (k + 2)) :
    kpOffOf L sigma (nbrs cin cout radius) (kgIn cin cout radius) f c b d = kpOffset L wo sigma cin cout radius f c b d := by
  unfold kpOffOf kpOffset
  simp only [hwo]
  rfl

theorem kgX_norm (L : KPLayer (k + 2)) (wo : ℕ → ℕ → ℝ) (hwo : L.offs = some wo) (sigma : ℝ)
    (cin cout : Cloud (Fin (k + 2) → ℝ)) (radius : ℝ) (f : Fin cin.n → ℕ → ℝ) (p : Fin cin.n) (c : Fin cout.n) (b : ℕ) :
    norm2 (kgX L sigma (nbrs cin cout radius) (kgIn cin cout radius) f p c b) =
      kpDist L wo sigma cin cout radius f c p b := by
  unfold kpDist kgX
  simp only [kpOffOf_eq L wo hwo]
  rfl

theorem callGrads_eq (dev : Device) (eps : ℝ) (L : KPLayer (k + 2)) (wo : ℕ → ℕ → ℝ) (hwo : L.offs = some wo)
    (cin cout : Cloud (Fin (k + 2) → ℝ)) (radius : ℝ) (hok : LayerOk cin cout radius eps)
    (influence : Option ℝ) (hcin : 0 < L.cin) (hnk : 0 < L.nk) (hkp : L.nkp = L.nk)
    (f : Fin cin.n → ℕ → ℝ) (no : ℕ) (g : ℕ → ℕ → ℝ) (h : Nbh k ℝ) (hl : layerNbh dev eps cin cout radius = .ok h) :
    ∃ G, L.callGrads dev eps cin cout radius influence f no g = .ok G ∧
      (∀ ch < L.cin, ∀ b' < L.nk, ∀ (b : ℕ) (d : Fin (k + 2)), G.conv (ch * L.nk + b') (b * (k + 2) + d.val) =
        ∑ c, (Flt.fin (∑ p ∈ nbrs cin cout radius c, f p ch *
          kgW1 L (kpSigma influence radius) (kgIn cin cout radius) p c b')).mul
            (kgOff L (kpSigma influence radius) (nbrs cin cout radius) (kgIn cin cout radius) f no g c b d)) ∧
      (∀ (p : Fin cin.n) (ch : ℕ), G.convFeat p.val ch =
        .fin (∑ c, if p ∈ nbrs cin cout radius c then ∑ b ∈ Finset.range L.nk, L.interp.weight (norm2
            (kgX L (kpSigma influence radius) (nbrs cin cout radius) (kgIn cin cout radius) f p c b)) (kpSigma influence radius) *
          ∑ o ∈ Finset.range no, g c.val o * L.weights (ch * L.nk + b) o else 0) +
        ∑ c, if p ∈ nbrs cin cout radius c then ∑ b ∈ Finset.range L.nk, (Flt.fin (kgW1 L (kpSigma influence radius)
            (kgIn cin cout radius) p c b)).mul
          (∑ b' ∈ Finset.range L.nk, ∑ d : Fin (k + 2), (kgOff L (kpSigma influence radius) (nbrs cin cout radius)
            (kgIn cin cout radius) f no g c b' d).mul
            (.fin (wo (ch * L.nk + b) (b' * (k + 2) + d.val)))) else 0) ∧
      (0 < cout.n → ∀ (r b : ℕ) (d : Fin (k + 2)), b < L.nk → G.reg r (b * (k + 2) + d.val) = .nan) ∧
      (∀ (p : Fin cin.n) (c : Fin cout.n), p ∈ nbrs cin cout radius c → ∀ ch, G.regFeat p.val ch = .nan) := by
  obtain ⟨nb, hnh, hf⟩ := layerNbh_eq hl
  unfold KPLayer.callGrads
  rw [hl]
  dsimp only
  subst hnh
  obtain ⟨h1, h2⟩ := layer_ids hok hf
  obtain ⟨G, hG, hr⟩ := offGrads_eq L (kpSigma influence radius) (nbrs cin cout radius) (kgIn cin cout radius) f no g
    (Nat.succ_pos _) wo hwo hcin hnk hkp _ h2 h1
  refine ⟨G, ?_, hr⟩
  rw [← hG]
  unfold Nbh.diffs
  simp only [gatherD_fin]
  rfl

/-! ## The derivatives -/

/-- What the offset of kernel point `b` of centre `c` contributes to the derivative of the loss. -/
noncomputable def kgOffR {n m : ℕ} {D : ℕ} (L : KPLayer D) (sigma : ℝ) (S : Fin m → Finset (Fin n))
    (I : Fin n → Fin m → Fin D → ℝ) (f : Fin n → ℕ → ℝ) (no : ℕ) (g : ℕ → ℕ → ℝ) (c : Fin m) (b : ℕ) (d : Fin D) : ℝ :=
  ∑ p ∈ S c, -(kgW L f no g p c b * L.interp.dWeight (norm2 (kgX L sigma S I f p c b)) sigma *
    (kgX L sigma S I f p c b d / norm2 (kgX L sigma S I f p c b)))

theorem kgOff_fin {n m : ℕ} {D : ℕ} (L : KPLayer D) (sigma : ℝ) (hs : sigma ≠ 0) (S : Fin m → Finset (Fin n))
    (I : Fin n → Fin m → Fin D → ℝ) (f : Fin n → ℕ → ℝ) (no : ℕ) (g : ℕ → ℕ → ℝ) (c : Fin m) (b : ℕ) (d : Fin D)
    (h0 : ∀ p ∈ S c, norm2 (kgX L sigma S I f p c b) ≠ 0) :
    kgOff L sigma S I f no g c b d = .fin (kgOffR L sigma S I f no g c b d) := by
  unfold kgOff kgOffR
  rw [← Flt.sum_fin]
  refine Finset.sum_congr rfl fun p hp => ?_
  rw [weightGrad_fin _ _ _ _ hs, normGrad_fin _ (h0 p hp)]
  rfl

theorem kgOff_nan {n m : ℕ} {D : ℕ} (L : KPLayer D) (sigma : ℝ) (S : Fin m → Finset (Fin n))
    (I : Fin n → Fin m → Fin D → ℝ) (f : Fin n → ℕ → ℝ) (no : ℕ) (g : ℕ → ℕ → ℝ) (c : Fin m) (b : ℕ) (d : Fin D)
    (p : Fin n) (hp : p ∈ S c) (h0 : norm2 (kgX L sigma S I f p c b) = 0) :
    kgOff L sigma S I f no g c b d = .nan := by
  unfold kgOff
  refine Flt.sum_nan _ _ p hp ?_
  rw [normGrad_zero _ h0]
  rfl

theorem loss_alg {ι κ : Type*} [Fintype κ] (P : Finset ι) (C B O : Finset ℕ) (g : ℕ → ℝ) (f' f : ι → ℕ → ℝ) (w dw : ι → ℕ → ℝ)
    (x : ι → ℕ → κ → ℝ) (o' : ℕ → κ → ℝ) (W : ℕ → ℕ → ℕ → ℝ) :
    ∑ o ∈ O, g o * ∑ p ∈ P, ∑ ch ∈ C, ∑ b ∈ B, (f' p ch * w p b + f p ch * (dw p b * ∑ d, x p b d * -(o' b d))) * W ch b o =
      (∑ p ∈ P, ∑ ch ∈ C, f' p ch * ∑ b ∈ B, w p b * ∑ o ∈ O, g o * W ch b o) +
      ∑ b ∈ B, ∑ d, (∑ p ∈ P, -((∑ ch ∈ C, f p ch * ∑ o ∈ O, g o * W ch b o) * dw p b * x p b d)) * o' b d := by
  have h1 : ∀ b d, (∑ p ∈ P, -((∑ ch ∈ C, f p ch * ∑ o ∈ O, g o * W ch b o) * dw p b * x p b d)) * o' b d =
      ∑ p ∈ P, ∑ ch ∈ C, ∑ o ∈ O, f p ch * g o * W ch b o * dw p b * (x p b d * -(o' b d)) := by
    intro b d
    rw [Finset.sum_mul]
    refine Finset.sum_congr rfl fun p _ => ?_
    simp only [Finset.sum_mul, Finset.mul_sum, ← Finset.sum_neg_distrib]
    refine Finset.sum_congr rfl fun ch _ => Finset.sum_congr rfl fun o _ => ?_
    ring
  simp only [h1]
  have h2 : ∑ b ∈ B, ∑ d, ∑ p ∈ P, ∑ ch ∈ C, ∑ o ∈ O, f p ch * g o * W ch b o * dw p b * (x p b d * -(o' b d)) =
      ∑ p ∈ P, ∑ ch ∈ C, ∑ b ∈ B, ∑ o ∈ O, f p ch * g o * W ch b o * dw p b * ∑ d, (x p b d * -(o' b d)) := by
    have : ∀ b ∈ B, ∑ d, ∑ p ∈ P, ∑ ch ∈ C, ∑ o ∈ O, f p ch * g o * W ch b o * dw p b * (x p b d * -(o' b d)) =
        ∑ p ∈ P, ∑ ch ∈ C, ∑ o ∈ O, f p ch * g o * W ch b o * dw p b * ∑ d, (x p b d * -(o' b d)) := by
      intro b _
      rw [Finset.sum_comm]
      refine Finset.sum_congr rfl fun p _ => ?_
      rw [Finset.sum_comm]
      refine Finset.sum_congr rfl fun ch _ => ?_
      rw [Finset.sum_comm]
      refine Finset.sum_congr rfl fun o _ => ?_
      rw [Finset.mul_sum]
    rw [Finset.sum_congr rfl this, Finset.sum_comm]
    refine Finset.sum_congr rfl fun p _ => ?_
    rw [Finset.sum_comm]
  rw [h2]
  have h3 : ∑ o ∈ O, g o * ∑ p ∈ P, ∑ ch ∈ C, ∑ b ∈ B, (f' p ch * w p b + f p ch * (dw p b * ∑ d, x p b d * -(o' b d))) * W ch b o =
      ∑ p ∈ P, ∑ ch ∈ C, ∑ b ∈ B, ∑ o ∈ O, g o * ((f' p ch * w p b + f p ch * (dw p b * ∑ d, x p b d * -(o' b d))) * W ch b o) := by
    simp only [Finset.mul_sum]
    rw [Finset.sum_comm]
    refine Finset.sum_congr rfl fun p _ => ?_
    rw [Finset.sum_comm]
    refine Finset.sum_congr rfl fun ch _ => ?_
    rw [Finset.sum_comm]
  rw [h3]
  simp only [← Finset.sum_add_distrib]
  refine Finset.sum_congr rfl fun p _ => Finset.sum_congr rfl fun ch _ => ?_
  rw [Finset.mul_sum, ← Finset.sum_add_distrib]
  refine Finset.sum_congr rfl fun b _ => ?_
  generalize (∑ d, x p b d * -(o' b d)) = Z
  rw [Finset.mul_sum, Finset.mul_sum, ← Finset.sum_add_distrib]
  refine Finset.sum_congr rfl fun o _ => ?_
  ring

/-- The chain rule for the loss `Σ g * output` along a curve of offset weights and features. -/
theorem loss_hasDeriv (L : KPLayer (k + 2)) (W : ℕ → ℕ → ℝ) (wo : ℝ → ℕ → ℕ → ℝ) (t₀ : ℝ)
    (sigma : ℝ) (hs : sigma ≠ 0) (cin cout : Cloud (Fin (k + 2) → ℝ))
    (radius : ℝ) (f : ℝ → Fin cin.n → ℕ → ℝ) (f' : Fin cin.n → ℕ → ℝ) (hf : ∀ p ch, HasDerivAt (fun t => f t p ch) (f' p ch) t₀)
    (o' : Fin cout.n → ℕ → Fin (k + 2) → ℝ)
    (ho : ∀ c b d, HasDerivAt (fun t => kpOffset (L.at (fun _ => W) wo t) (wo t) sigma cin cout radius (f t) c b d)
      (o' c b d) t₀)
    (hne : ∀ (c : Fin cout.n), ∀ p ∈ nbrs cin cout radius c, ∀ b < L.nk,
      kpDist (L.at (fun _ => W) wo t₀) (wo t₀) sigma cin cout radius (f t₀) c p b ≠ 0 ∧ (L.interp = .linear →
        kpDist (L.at (fun _ => W) wo t₀) (wo t₀) sigma cin cout radius (f t₀) c p b ≠ sigma))
    (no : ℕ) (g : ℕ → ℕ → ℝ) :
    HasDerivAt (fun t => ∑ c : Fin cout.n, ∑ o ∈ Finset.range no, g c.val o *
        kpSpec (L.at (fun _ => W) wo t) sigma cin cout radius (f t) c o)
      (∑ c : Fin cout.n, ((∑ p ∈ nbrs cin cout radius c, ∑ ch ∈ Finset.range L.cin, f' p ch * ∑ b ∈ Finset.range L.nk,
          L.interp.weight (kpDist (L.at (fun _ => W) wo t₀) (wo t₀) sigma cin cout radius (f t₀) c p b) sigma *
            ∑ o ∈ Finset.range no, g c.val o * W (ch * L.nk + b) o) +
        ∑ b ∈ Finset.range L.nk, ∑ d, kgOffR (L.at (fun _ => W) wo t₀) sigma (nbrs cin cout radius) (kgIn cin cout radius)
          (f t₀) no g c b d * o' c b d)) t₀ := by
  refine HasDerivAt.fun_sum fun c _ => ?_
  have hw : ∀ p ∈ nbrs cin cout radius c, ∀ b < L.nk, HasDerivAt
      (fun t => L.interp.weight (kpDist (L.at (fun _ => W) wo t) (wo t) sigma cin cout radius (f t) c p b) sigma)
      (L.interp.dWeight (kpDist (L.at (fun _ => W) wo t₀) (wo t₀) sigma cin cout radius (f t₀) c p b) sigma *
        ∑ d, ((cin.pts p d - cout.pts c d) / radius - (L.kp b d +
          kpOffset (L.at (fun _ => W) wo t₀) (wo t₀) sigma cin cout radius (f t₀) c b d)) /
            kpDist (L.at (fun _ => W) wo t₀) (wo t₀) sigma cin cout radius (f t₀) c p b * -(o' c b d)) t₀ := by
    intro p hp b hb
    obtain ⟨h0, h1⟩ := hne c p hp b hb
    have hd := norm2_hasDeriv (fun t d => (cin.pts p d - cout.pts c d) / radius - (L.kp b d +
      kpOffset (L.at (fun _ => W) wo t) (wo t) sigma cin cout radius (f t) c b d)) (fun d => -(o' c b d)) t₀
      (fun d => by simpa using ((ho c b d).const_add (L.kp b d)).const_sub ((cin.pts p d - cout.pts c d) / radius)) h0
    exact (weight_hasDeriv L.interp _ sigma hs h1).comp t₀ hd
  have hsum : HasDerivAt (fun t => ∑ o ∈ Finset.range no, g c.val o * ∑ p ∈ nbrs cin cout radius c,
      ∑ ch ∈ Finset.range L.cin, ∑ b ∈ Finset.range L.nk, f t p ch *
        L.interp.weight (kpDist (L.at (fun _ => W) wo t) (wo t) sigma cin cout radius (f t) c p b) sigma *
          W (ch * L.nk + b) o) (∑ o ∈ Finset.range no, g c.val o * ∑ p ∈ nbrs cin cout radius c,
      ∑ ch ∈ Finset.range L.cin, ∑ b ∈ Finset.range L.nk, (f' p ch *
        L.interp.weight (kpDist (L.at (fun _ => W) wo t₀) (wo t₀) sigma cin cout radius (f t₀) c p b) sigma +
        f t₀ p ch * (L.interp.dWeight (kpDist (L.at (fun _ => W) wo t₀) (wo t₀) sigma cin cout radius (f t₀) c p b) sigma *
        ∑ d, ((cin.pts p d - cout.pts c d) / radius - (L.kp b d +
          kpOffset (L.at (fun _ => W) wo t₀) (wo t₀) sigma cin cout radius (f t₀) c b d)) /
            kpDist (L.at (fun _ => W) wo t₀) (wo t₀) sigma cin cout radius (f t₀) c p b * -(o' c b d))) *
          W (ch * L.nk + b) o) t₀ := by
    refine HasDerivAt.fun_sum fun o _ => HasDerivAt.const_mul _ ?_
    refine HasDerivAt.fun_sum fun p hp => HasDerivAt.fun_sum fun ch _ => HasDerivAt.fun_sum fun b hb => ?_
    exact ((hf p ch).mul (hw p hp b (Finset.mem_range.1 hb))).mul_const _
  have e : ∀ X Y : ℝ, X = Y → HasDerivAt (fun t => ∑ o ∈ Finset.range no, g c.val o *
      kpSpec (L.at (fun _ => W) wo t) sigma cin cout radius (f t) c o) X t₀ → HasDerivAt (fun t => ∑ o ∈ Finset.range no, g c.val o *
      kpSpec (L.at (fun _ => W) wo t) sigma cin cout radius (f t) c o) Y t₀ := fun X Y h h' => h ▸ h'
  refine e _ _ ?_ hsum
  have hx : ∀ p b, norm2 (kgX (L.at (fun _ => W) wo t₀) sigma (nbrs cin cout radius) (kgIn cin cout radius) (f t₀) p c b) =
      kpDist (L.at (fun _ => W) wo t₀) (wo t₀) sigma cin cout radius (f t₀) c p b :=
    fun p b => kgX_norm _ _ rfl _ _ _ _ _ _ _ _
  unfold kgOffR
  simp only [hx]
  unfold kgX
  simp only [kpOffOf_eq (L.at (fun _ => W) wo t₀) (wo t₀) rfl]
  exact loss_alg (nbrs cin cout radius c) (Finset.range L.cin) (Finset.range L.nk) (Finset.range no) (g c.val) f' (f t₀) _ _
    (fun p b d => ((cin.pts p d - cout.pts c d) / radius - (L.kp b d +
          kpOffset (L.at (fun _ => W) wo t₀) (wo t₀) sigma cin cout radius (f t₀) c b d)) /
            kpDist (L.at (fun _ => W) wo t₀) (wo t₀) sigma cin cout radius (f t₀) c p b) (o' c)
    (fun ch b o => W (ch * L.nk + b) o)

/-- Offset weights with `t` added to one entry. -/
def bump (wo : ℕ → ℕ → ℝ) (r s : ℕ) (t : ℝ) (x y : ℕ) : ℝ := wo x y + if x = r ∧ y = s then t else 0

theorem bump_zero (wo : ℕ → ℕ → ℝ) (r s : ℕ) : bump wo r s 0 = wo := by
  funext x y; simp [bump]

theorem at_self (L : KPLayer (k + 2)) (wo : ℕ → ℕ → ℝ) (hwo : L.offs = some wo) (u : ℝ → ℕ → ℕ → ℝ) (hu : u 0 = wo) :
    L.at (fun _ => L.weights) u 0 = L := by
  obtain ⟨cin, nk, nkp, kp, interp, weights, offs⟩ := L
  dsimp only at hwo
  subst hwo
  unfold KPLayer.at
  rw [hu]

theorem flat_inj {nk a a' b b' : ℕ} (hb : b < nk) (hb' : b' < nk) (h : a * nk + b = a' * nk + b') : a = a' ∧ b = b' := by
  have hnk : 0 < nk := by omega
  have e1 := congrArg (· / nk) h
  have e2 := congrArg (· % nk) h
  simp only [Nat.mul_comm _ nk, Nat.mul_add_div hnk, Nat.div_eq_of_lt hb, Nat.div_eq_of_lt hb', Nat.add_zero,
    Nat.mul_add_mod, Nat.mod_eq_of_lt hb, Nat.mod_eq_of_lt hb'] at e1 e2
  exact ⟨e1, e2⟩

theorem offset_bump (L : KPLayer (k + 2)) (W : ℕ → ℕ → ℝ) (wo : ℕ → ℕ → ℝ) (ch b' s : ℕ) (hch : ch < L.cin) (hb' : b' < L.nk)
    (sigma : ℝ) (cin cout : Cloud (Fin (k + 2) → ℝ)) (radius : ℝ) (f : Fin cin.n → ℕ → ℝ) (c : Fin cout.n) (b : ℕ)
    (d : Fin (k + 2)) (t₀ : ℝ) :
    HasDerivAt (fun t => kpOffset (L.at (fun _ => W) (bump wo (ch * L.nk + b') s) t) (bump wo (ch * L.nk + b') s t) sigma
      cin cout radius f c b d) (if b * (k + 2) + d.val = s then ∑ p ∈ nbrs cin cout radius c, f p ch *
        kgW1 L sigma (kgIn cin cout radius) p c b' else 0) t₀ := by
  have h : HasDerivAt (fun t => kpOffset (L.at (fun _ => W) (bump wo (ch * L.nk + b') s) t) (bump wo (ch * L.nk + b') s t) sigma
      cin cout radius f c b d) (∑ p ∈ nbrs cin cout radius c, ∑ ch₁ ∈ Finset.range L.cin, ∑ b₁ ∈ Finset.range L.nk,
        f p ch₁ * kgW1 L sigma (kgIn cin cout radius) p c b₁ *
          if ch₁ * L.nk + b₁ = ch * L.nk + b' ∧ b * (k + 2) + d.val = s then 1 else 0) t₀ := by
    unfold kpOffset KPLayer.at kgW1 kgIn
    dsimp only
    refine HasDerivAt.fun_sum fun p _ => HasDerivAt.fun_sum fun ch₁ _ => HasDerivAt.fun_sum fun b₁ _ => ?_
    refine HasDerivAt.const_mul _ ?_
    unfold bump
    refine HasDerivAt.const_add _ ?_
    split
    · exact hasDerivAt_id' t₀
    · exact hasDerivAt_const _ _
  convert h using 1
  split
  · rename_i hs
    refine Finset.sum_congr rfl fun p _ => ?_
    rw [Finset.sum_eq_single ch]
    · rw [Finset.sum_eq_single b']
      · rw [if_pos ⟨rfl, hs⟩, mul_one]
      · intro b₁ hb₁ hne
        rw [if_neg, mul_zero]
        intro h
        exact hne (flat_inj (Finset.mem_range.1 hb₁) hb' h.1).2
      · intro h; exact absurd (Finset.mem_range.2 hb') h
    · intro ch₁ _ hne
      refine Finset.sum_eq_zero fun b₁ hb₁ => ?_
      rw [if_neg, mul_zero]
      intro h
      exact hne (flat_inj (Finset.mem_range.1 hb₁) hb' h.1).1
    · intro h; exact absurd (Finset.mem_range.2 hch) h
  · rename_i hs
    symm
    refine Finset.sum_eq_zero fun p _ => Finset.sum_eq_zero fun ch₁ _ => Finset.sum_eq_zero fun b₁ _ => ?_
    rw [if_neg (fun h => hs h.2), mul_zero]

/-! ## C154 -/

/-- **C154, offset weights.** Where no neighbour lies on a displaced kernel point (and, with linear interpolation, none
exactly at the influence distance), the gradient of any linear loss `Σ g * output` that automatic differentiation returns for
an offset weight is a number, and it is the partial derivative of the loss as a function of the outputs of calls of the layer
with that weight changed. -/
theorem C154_offset_weights_partial (dev : Device) (eps : ℝ) (L : KPLayer (k + 2)) (wo : ℕ → ℕ → ℝ) (hwo : L.offs = some wo)
    (cin cout : Cloud (Fin (k + 2) → ℝ)) (radius : ℝ) (hok : LayerOk cin cout radius eps)
    (influence : Option ℝ) (hs : kpSigma influence radius ≠ 0) (hcin : 0 < L.cin) (hnk : 0 < L.nk) (hkp : L.nkp = L.nk)
    (f : Fin cin.n → ℕ → ℝ) (no : ℕ) (g : ℕ → ℕ → ℝ)
    (hne : ∀ (c : Fin cout.n), ∀ p ∈ nbrs cin cout radius c, ∀ b < L.nk,
      kpDist L wo (kpSigma influence radius) cin cout radius f c p b ≠ 0 ∧ (L.interp = .linear →
        kpDist L wo (kpSigma influence radius) cin cout radius f c p b ≠ kpSigma influence radius))
    (r s : ℕ) (hr : r < L.cin * L.nk) (hsr : s < L.nk * (k + 2)) (out : ℝ → ℕ × (ℕ → ℕ → ℝ))
    (h : ∀ t, (L.at (fun _ => L.weights) (bump wo r s) t).call dev eps cin cout radius influence f = .ok (out t))
    (G : KPGrads) (hG : L.callGrads dev eps cin cout radius influence f no g = .ok G) :
    ∃ D, G.conv r s = .fin D ∧
      HasDerivAt (fun t => ∑ c : Fin cout.n, ∑ o ∈ Finset.range no, g c.val o * (out t).2 c.val o) D 0 := by
  obtain ⟨nh, hnh⟩ := kp_call_nbh (h 0)
  obtain ⟨G', hG', hconv, -⟩ := callGrads_eq dev eps L wo hwo cin cout radius hok influence hcin hnk hkp f no g nh hnh
  obtain rfl : G = G' := by rw [hG] at hG'; exact Except.ok.inj hG'
  have hch : r / L.nk < L.cin := Nat.div_lt_of_lt_mul (by rw [Nat.mul_comm]; exact hr)
  have hb' : r % L.nk < L.nk := Nat.mod_lt _ hnk
  have er : r / L.nk * L.nk + r % L.nk = r := Nat.div_add_mod' r L.nk
  have hb : s / (k + 2) < L.nk := Nat.div_lt_of_lt_mul (by rw [Nat.mul_comm]; exact hsr)
  have es : s / (k + 2) * (k + 2) + s % (k + 2) = s := Nat.div_add_mod' s (k + 2)
  obtain ⟨d, hd⟩ : ∃ d : Fin (k + 2), d.val = s % (k + 2) := ⟨⟨s % (k + 2), Nat.mod_lt _ (by omega)⟩, rfl⟩
  have hat := at_self L wo hwo (bump wo r s) (bump_zero wo r s)
  have hv := hconv _ hch _ hb' (s / (k + 2)) d
  rw [er, hd, es] at hv
  have hko := fun c => kgOff_fin L (kpSigma influence radius) hs (nbrs cin cout radius) (kgIn cin cout radius) f no g c
    (s / (k + 2)) d (fun p hp => by rw [kgX_norm L wo hwo]; exact (hne _ p hp _ hb).1)
  simp only [hko, Flt.fin_mul] at hv
  rw [Flt.sum_fin] at hv
  refine ⟨_, hv, ?_⟩
  have e : (fun t => ∑ c : Fin cout.n, ∑ o ∈ Finset.range no, g c.val o * (out t).2 c.val o) =
      fun t => ∑ c : Fin cout.n, ∑ o ∈ Finset.range no, g c.val o *
        kpSpec (L.at (fun _ => L.weights) (bump wo r s) t) (kpSigma influence radius) cin cout radius f c o := by
    funext t
    refine Finset.sum_congr rfl fun c _ => Finset.sum_congr rfl fun o _ => ?_
    rw [(kp_call_spec (L := L.at (fun _ => L.weights) (bump wo r s) t) hok hcin hnk hkp (h t)).2 c o]
  rw [e]
  have hoff := fun (c : Fin cout.n) (b₁ : ℕ) (d₁ : Fin (k + 2)) => offset_bump L L.weights wo (r / L.nk) (r % L.nk) s hch hb'
    (kpSigma influence radius) cin cout radius f c b₁ d₁ 0
  rw [er] at hoff
  have hmain := loss_hasDeriv L L.weights (bump wo r s) 0 (kpSigma influence radius) hs cin cout radius (fun _ => f)
    (fun _ _ => 0) (fun p ch => hasDerivAt_const _ _) _ hoff (by rw [hat, bump_zero]; exact hne) no g
  rw [hat] at hmain
  convert hmain using 1
  refine Finset.sum_congr rfl fun c _ => ?_
  simp only [zero_mul, Finset.sum_const_zero, zero_add]
  rw [Finset.sum_eq_single (s / (k + 2))]
  · rw [Finset.sum_eq_single d]
    · rw [if_pos (by rw [hd, es]), mul_comm]
    · intro d₁ _ hd₁
      rw [if_neg, mul_zero]
      intro h
      rw [← es, ← hd] at h
      exact hd₁ (Fin.ext (flat_inj d₁.isLt d.isLt h).2)
    · intro h; exact absurd (Finset.mem_univ _) h
  · intro b₁ _ hb₁
    refine Finset.sum_eq_zero fun d₁ _ => ?_
    rw [if_neg, mul_zero]
    intro h
    rw [← es, ← hd] at h
    exact hb₁ (flat_inj d₁.isLt d.isLt h).1
  · intro h; exact absurd (Finset.mem_range.2 hb) h

/-- Features with `t` added to one entry. -/
def bumpF {n : ℕ} (f : Fin n → ℕ → ℝ) (p₀ : Fin n) (ch₀ : ℕ) (t : ℝ) (p : Fin n) (ch : ℕ) : ℝ :=
  f p ch + if p = p₀ ∧ ch = ch₀ then t else 0

theorem bumpF_zero {n : ℕ} (f : Fin n → ℕ → ℝ) (p₀ : Fin n) (ch₀ : ℕ) : bumpF f p₀ ch₀ 0 = f := by
  funext x y; simp [bumpF]

theorem bumpF_deriv {n : ℕ} (f : Fin n → ℕ → ℝ) (p₀ : Fin n) (ch₀ : ℕ) (t₀ : ℝ) (p : Fin n) (ch : ℕ) :
    HasDerivAt (fun t => bumpF f p₀ ch₀ t p ch) (if p = p₀ ∧ ch = ch₀ then 1 else 0) t₀ := by
  unfold bumpF
  refine HasDerivAt.const_add _ ?_
  split
  · exact hasDerivAt_id' t₀
  · exact hasDerivAt_const _ _

/-- Sums with a single non-zero entry. -/
theorem sum_single_entry {ι : Type*} [DecidableEq ι] (S : Finset ι) (p₀ : ι) (m ch₀ : ℕ) (hch : ch₀ < m) (F : ι → ℕ → ℝ) :
    ∑ p ∈ S, ∑ ch ∈ Finset.range m, (if p = p₀ ∧ ch = ch₀ then 1 else 0) * F p ch = if p₀ ∈ S then F p₀ ch₀ else 0 := by
  split
  · rename_i hp
    rw [Finset.sum_eq_single p₀]
    · rw [Finset.sum_eq_single ch₀]
      · simp
      · intro c _ hc; simp [hc]
      · intro h; exact absurd (Finset.mem_range.2 hch) h
    · intro p _ hp'; simp [hp']
    · intro h; exact absurd hp h
  · rename_i hp
    refine Finset.sum_eq_zero fun p hp' => Finset.sum_eq_zero fun c _ => ?_
    rw [if_neg, zero_mul]
    rintro ⟨rfl, -⟩
    exact hp hp'

theorem offset_bumpF (L : KPLayer (k + 2)) (W : ℕ → ℕ → ℝ) (wo : ℕ → ℕ → ℝ) (ch₀ : ℕ) (hch : ch₀ < L.cin)
    (sigma : ℝ) {cin cout : Cloud (Fin (k + 2) → ℝ)} (radius : ℝ) (f : Fin cin.n → ℕ → ℝ) (p₀ : Fin cin.n) (c : Fin cout.n)
    (b : ℕ) (d : Fin (k + 2)) (t₀ : ℝ) :
    HasDerivAt (fun t => kpOffset (L.at (fun _ => W) (fun _ => wo) t) wo sigma
      cin cout radius (bumpF f p₀ ch₀ t) c b d) (if p₀ ∈ nbrs cin cout radius c then ∑ b' ∈ Finset.range L.nk,
        kgW1 L sigma (kgIn cin cout radius) p₀ c b' * wo (ch₀ * L.nk + b') (b * (k + 2) + d.val) else 0) t₀ := by
  have h : HasDerivAt (fun t => kpOffset (L.at (fun _ => W) (fun _ => wo) t) wo sigma
      cin cout radius (bumpF f p₀ ch₀ t) c b d) (∑ p ∈ nbrs cin cout radius c, ∑ ch₁ ∈ Finset.range L.cin,
        ∑ b₁ ∈ Finset.range L.nk, (if p = p₀ ∧ ch₁ = ch₀ then 1 else 0) *
          kgW1 L sigma (kgIn cin cout radius) p c b₁ * wo (ch₁ * L.nk + b₁) (b * (k + 2) + d.val)) t₀ := by
    unfold kpOffset KPLayer.at kgW1 kgIn
    dsimp only
    refine HasDerivAt.fun_sum fun p _ => HasDerivAt.fun_sum fun ch₁ _ => HasDerivAt.fun_sum fun b₁ _ => ?_
    exact ((bumpF_deriv f p₀ ch₀ t₀ p ch₁).mul_const _).mul_const _
  convert h using 1
  simp only [mul_assoc, ← Finset.mul_sum]
  rw [sum_single_entry _ p₀ L.cin ch₀ hch (fun p ch => ∑ b₁ ∈ Finset.range L.nk,
    kgW1 L sigma (kgIn cin cout radius) p c b₁ * wo (ch * L.nk + b₁) (b * (k + 2) + d.val))]

/-- **C154, features.** The same for the gradients with respect to the input features, which reach the loss through the
convolution and through the offsets. -/
theorem C154_features_partial (dev : Device) (eps : ℝ) (L : KPLayer (k + 2)) (wo : ℕ → ℕ → ℝ) (hwo : L.offs = some wo)
    (cin cout : Cloud (Fin (k + 2) → ℝ)) (radius : ℝ) (hok : LayerOk cin cout radius eps)
    (influence : Option ℝ) (hs : kpSigma influence radius ≠ 0) (hcin : 0 < L.cin) (hnk : 0 < L.nk) (hkp : L.nkp = L.nk)
    (f : Fin cin.n → ℕ → ℝ) (no : ℕ) (g : ℕ → ℕ → ℝ)
    (hne : ∀ (c : Fin cout.n), ∀ p ∈ nbrs cin cout radius c, ∀ b < L.nk,
      kpDist L wo (kpSigma influence radius) cin cout radius f c p b ≠ 0 ∧ (L.interp = .linear →
        kpDist L wo (kpSigma influence radius) cin cout radius f c p b ≠ kpSigma influence radius))
    (p₀ : Fin cin.n) (ch₀ : ℕ) (hch : ch₀ < L.cin) (out : ℝ → ℕ × (ℕ → ℕ → ℝ))
    (h : ∀ t, L.call dev eps cin cout radius influence (bumpF f p₀ ch₀ t) = .ok (out t))
    (G : KPGrads) (hG : L.callGrads dev eps cin cout radius influence f no g = .ok G) :
    ∃ D, G.convFeat p₀.val ch₀ = .fin D ∧
      HasDerivAt (fun t => ∑ c : Fin cout.n, ∑ o ∈ Finset.range no, g c.val o * (out t).2 c.val o) D 0 := by
  obtain ⟨nh, hnh⟩ := kp_call_nbh (h 0)
  obtain ⟨G', hG', -, hfeat, -⟩ := callGrads_eq dev eps L wo hwo cin cout radius hok influence hcin hnk hkp f no g nh hnh
  obtain rfl : G = G' := by rw [hG] at hG'; exact Except.ok.inj hG'
  have hat : ∀ t, L.at (fun _ => L.weights) (fun _ => wo) t = L := fun t => at_self L wo hwo (fun _ => wo) rfl
  have hv := hfeat p₀ ch₀
  have hko : ∀ c, ∀ b' ∈ Finset.range L.nk, ∀ d, kgOff L (kpSigma influence radius) (nbrs cin cout radius) (kgIn cin cout radius) f no g c
      b' d = .fin (kgOffR L (kpSigma influence radius) (nbrs cin cout radius) (kgIn cin cout radius) f no g c b' d) :=
    fun c b' hb' d => kgOff_fin L (kpSigma influence radius) hs (nbrs cin cout radius) (kgIn cin cout radius) f no g c
      b' d (fun p hp => by rw [kgX_norm L wo hwo]; exact (hne _ p hp _ (Finset.mem_range.1 hb')).1)
  have hin : ∀ c b, ∑ b' ∈ Finset.range L.nk, ∑ d : Fin (k + 2), (kgOff L (kpSigma influence radius) (nbrs cin cout radius)
            (kgIn cin cout radius) f no g c b' d).mul (.fin (wo (ch₀ * L.nk + b) (b' * (k + 2) + d.val))) =
      .fin (∑ b' ∈ Finset.range L.nk, ∑ d : Fin (k + 2), kgOffR L (kpSigma influence radius) (nbrs cin cout radius)
        (kgIn cin cout radius) f no g c b' d * wo (ch₀ * L.nk + b) (b' * (k + 2) + d.val)) := by
    intro c b
    rw [← Flt.sum_fin]
    refine Finset.sum_congr rfl fun b' hb' => ?_
    rw [← Flt.sum_fin]
    refine Finset.sum_congr rfl fun d _ => ?_
    rw [hko c b' hb' d, Flt.fin_mul]
  have hite : ∀ (q : Prop) [Decidable q] (x : ℝ), (if q then Flt.fin x else 0) = Flt.fin (if q then x else 0) := by
    intro q _ x; split <;> rfl
  simp only [hin, Flt.fin_mul, Flt.sum_fin, hite, Flt.fin_add] at hv
  refine ⟨_, hv, ?_⟩
  have e : (fun t => ∑ c : Fin cout.n, ∑ o ∈ Finset.range no, g c.val o * (out t).2 c.val o) =
      fun t => ∑ c : Fin cout.n, ∑ o ∈ Finset.range no, g c.val o *
        kpSpec (L.at (fun _ => L.weights) (fun _ => wo) t) (kpSigma influence radius) cin cout radius (bumpF f p₀ ch₀ t) c o := by
    funext t
    rw [hat]
    refine Finset.sum_congr rfl fun c _ => Finset.sum_congr rfl fun o _ => ?_
    rw [(kp_call_spec hok hcin hnk hkp (h t)).2 c o]
  rw [e]
  have hmain := loss_hasDeriv L L.weights (fun _ => wo) 0 (kpSigma influence radius) hs cin cout radius (bumpF f p₀ ch₀)
    _ (fun p ch => bumpF_deriv f p₀ ch₀ 0 p ch) _
    (fun c b d => offset_bumpF L L.weights wo ch₀ hch (kpSigma influence radius) radius f p₀ c b d 0)
    (by rw [hat, bumpF_zero]; exact hne) no g
  rw [hat, bumpF_zero] at hmain
  convert hmain using 1
  rw [← Finset.sum_add_distrib]
  refine Finset.sum_congr rfl fun c _ => ?_
  rw [sum_single_entry _ p₀ L.cin ch₀ hch (fun p ch => ∑ b ∈ Finset.range L.nk, L.interp.weight
    (kpDist L wo (kpSigma influence radius) cin cout radius f c p b) (kpSigma influence radius) *
      ∑ o ∈ Finset.range no, g c.val o * L.weights (ch * L.nk + b) o)]
  by_cases hp : p₀ ∈ nbrs cin cout radius c
  · simp only [if_pos hp, kgX_norm L wo hwo]
    congr 1
    simp only [Finset.mul_sum]
    rw [Finset.sum_comm]
    refine Finset.sum_congr rfl fun b' _ => ?_
    rw [Finset.sum_comm]
    refine Finset.sum_congr rfl fun d _ => Finset.sum_congr rfl fun b _ => ?_
    ring
  · simp only [if_neg hp, mul_zero, Finset.sum_const_zero, add_zero]

/-! ## What fails -/

/-- The gradients of a call on the GPU exist. -/
theorem callGrads_returns (eps : ℝ) (L : KPLayer (k + 2)) (wo : ℕ → ℕ → ℝ) (hwo : L.offs = some wo)
    (cin cout : Cloud (Fin (k + 2) → ℝ)) (radius : ℝ) (hok : LayerOk cin cout radius eps)
    (influence : Option ℝ) (hcin : 0 < L.cin) (hnk : 0 < L.nk) (hkp : L.nkp = L.nk)
    (hn : 0 < cout.n) (hB : ∀ i, cout.batch i < cin.B) (f : Fin cin.n → ℕ → ℝ) (no : ℕ) (g : ℕ → ℕ → ℝ) :
    ∃ G, L.callGrads .gpu eps cin cout radius influence f no g = .ok G := by
  obtain ⟨h, hh⟩ := layerNbh_gpu eps cin cout radius hok hn hB
  obtain ⟨G, hG, -⟩ := callGrads_eq .gpu eps L wo hwo cin cout radius hok influence hcin hnk hkp f no g h hh
  exact ⟨G, hG⟩

theorem callGrads_nbh {dev : Device} {eps : ℝ} {L : KPLayer (k + 2)}
    {cin cout : Cloud (Fin (k + 2) → ℝ)} {radius : ℝ} {influence : Option ℝ}
    {f : Fin cin.n → ℕ → ℝ} {no : ℕ} {g : ℕ → ℕ → ℝ} {G : KPGrads}
    (h : L.callGrads dev eps cin cout radius influence f no g = .ok G) :
    ∃ nh, layerNbh dev eps cin cout radius = .ok nh := by
  unfold KPLayer.callGrads at h
  cases hl : layerNbh dev eps cin cout radius with
  | error e => rw [hl] at h; simp at h
  | ok nh => exact ⟨nh, rfl⟩

/-- **C154, the regularization loss cannot be trained.** For every deformable layer, all clouds, features and weights: the
gradient of `regularization_loss` is not a number for any offset weight, nor for any feature of a point that is a neighbour
of an output point.  The distance of each kernel point to itself is on the diagonal that is replaced by zero; its norm has no
gradient. -/
theorem C154_regularization_nan (dev : Device) (eps : ℝ) (L : KPLayer (k + 2)) (wo : ℕ → ℕ → ℝ) (hwo : L.offs = some wo)
    (cin cout : Cloud (Fin (k + 2) → ℝ)) (radius : ℝ) (hok : LayerOk cin cout radius eps)
    (influence : Option ℝ) (hcin : 0 < L.cin) (hnk : 0 < L.nk) (hkp : L.nkp = L.nk) (hn : 0 < cout.n)
    (f : Fin cin.n → ℕ → ℝ) (no : ℕ) (g : ℕ → ℕ → ℝ) (G : KPGrads)
    (hG : L.callGrads dev eps cin cout radius influence f no g = .ok G) :
    (∀ r s, s < L.nk * (k + 2) → G.reg r s = .nan) ∧
      ∀ (c : Fin cout.n), ∀ p ∈ nbrs cin cout radius c, ∀ ch, G.regFeat p.val ch = .nan := by
  obtain ⟨nh, hnh⟩ := callGrads_nbh hG
  obtain ⟨G', hG', -, -, hreg, hfeat⟩ := callGrads_eq dev eps L wo hwo cin cout radius hok influence hcin hnk hkp f no g nh hnh
  obtain rfl : G = G' := by rw [hG] at hG'; exact Except.ok.inj hG'
  refine ⟨fun r s hs => ?_, fun c p hp ch => hfeat p c hp ch⟩
  have hb : s / (k + 2) < L.nk := Nat.div_lt_of_lt_mul (by rw [Nat.mul_comm]; exact hs)
  have := hreg hn r (s / (k + 2)) ⟨s % (k + 2), Nat.mod_lt _ (by omega)⟩ hb
  rwa [Nat.div_add_mod' s (k + 2)] at this

/-- **C154, a neighbour on a displaced kernel point.** Then the gradients of the offset weights of that kernel point, and
of the features of all neighbours of that centre, are not numbers, whatever the loss, also if it does not depend on the
outputs at all (`g = 0`). -/
theorem C154_on_kernel_point_nan (dev : Device) (eps : ℝ) (L : KPLayer (k + 2)) (wo : ℕ → ℕ → ℝ) (hwo : L.offs = some wo)
    (cin cout : Cloud (Fin (k + 2) → ℝ)) (radius : ℝ) (hok : LayerOk cin cout radius eps)
    (influence : Option ℝ) (hcin : 0 < L.cin) (hnk : 0 < L.nk) (hkp : L.nkp = L.nk)
    (f : Fin cin.n → ℕ → ℝ) (no : ℕ) (g : ℕ → ℕ → ℝ) (G : KPGrads)
    (hG : L.callGrads dev eps cin cout radius influence f no g = .ok G)
    (c : Fin cout.n) (p : Fin cin.n) (hp : p ∈ nbrs cin cout radius c) (b : ℕ) (hb : b < L.nk)
    (h0 : kpDist L wo (kpSigma influence radius) cin cout radius f c p b = 0) :
    (∀ r < L.cin * L.nk, ∀ d < k + 2, G.conv r (b * (k + 2) + d) = .nan) ∧
      ∀ q ∈ nbrs cin cout radius c, ∀ ch < L.cin, G.convFeat q.val ch = .nan := by
  obtain ⟨nh, hnh⟩ := callGrads_nbh hG
  obtain ⟨G', hG', hconv, hfeat, -⟩ := callGrads_eq dev eps L wo hwo cin cout radius hok influence hcin hnk hkp f no g nh hnh
  obtain rfl : G = G' := by rw [hG] at hG'; exact Except.ok.inj hG'
  have hnan := fun d => kgOff_nan L (kpSigma influence radius) (nbrs cin cout radius) (kgIn cin cout radius) f no g c b d p hp
    ((kgX_norm L wo hwo _ _ _ _ _ _ _ _).trans h0)
  constructor
  · intro r hr d hd
    have hch : r / L.nk < L.cin := Nat.div_lt_of_lt_mul (by rw [Nat.mul_comm]; exact hr)
    have hv := hconv _ hch _ (Nat.mod_lt r hnk) b ⟨d, hd⟩
    rw [Nat.div_add_mod' r L.nk] at hv
    refine hv.trans (Flt.sum_nan _ _ c (Finset.mem_univ _) ?_)
    rw [hnan, Flt.mul_nan]
  · intro q hq ch _
    rw [hfeat q ch, Flt.sum_nan _ _ c (Finset.mem_univ _), Flt.add_nan]
    rw [if_pos hq]
    refine Flt.sum_nan _ _ 0 (Finset.mem_range.2 hnk) ?_
    rw [Flt.sum_nan _ _ b (Finset.mem_range.2 hb), Flt.mul_nan]
    refine Flt.sum_nan _ _ 0 (Finset.mem_univ _) ?_
    rw [hnan, Flt.nan_mul]

/-- **C154, features that are zero.** With a kernel point at the centre, as the first built-in one, input and output points
the same, and a point all of whose neighbours have the feature zero (after an activation, or in padding): the gradients are
not numbers, for every loss and all weights. -/
theorem C154_zero_features_nan (dev : Device) (eps : ℝ) (L : KPLayer (k + 2)) (wo : ℕ → ℕ → ℝ) (hwo : L.offs = some wo)
    (cl : Cloud (Fin (k + 2) → ℝ)) (radius : ℝ) (hok : LayerOk cl cl radius eps)
    (influence : Option ℝ) (hcin : 0 < L.cin) (hnk : 0 < L.nk) (hkp : L.nkp = L.nk) (hz : ∀ d, L.kp 0 d = 0)
    (f : Fin cl.n → ℕ → ℝ) (no : ℕ) (g : ℕ → ℕ → ℝ) (G : KPGrads)
    (hG : L.callGrads dev eps cl cl radius influence f no g = .ok G)
    (c : Fin cl.n) (hf : ∀ p ∈ nbrs cl cl radius c, ∀ ch < L.cin, f p ch = 0) :
    (∀ r < L.cin * L.nk, ∀ d < k + 2, G.conv r d = .nan) ∧
      ∀ q ∈ nbrs cl cl radius c, ∀ ch < L.cin, G.convFeat q.val ch = .nan := by
  have hself : c ∈ nbrs cl cl radius c := by
    rw [mem_nbrs]
    refine ⟨rfl, hok.radius_pos, ?_⟩
    simp only [sub_self]
    have := hok.radius_pos
    simp
    positivity
  have h0 : kpDist L wo (kpSigma influence radius) cl cl radius f c c 0 = 0 := by
    have ho : ∀ d, kpOffset L wo (kpSigma influence radius) cl cl radius f c 0 d = 0 := by
      intro d
      unfold kpOffset
      refine Finset.sum_eq_zero fun p hp => Finset.sum_eq_zero fun ch hch => Finset.sum_eq_zero fun b _ => ?_
      rw [hf p hp ch (Finset.mem_range.1 hch), zero_mul, zero_mul]
    unfold kpDist norm2
    simp [ho, hz]
  have := C154_on_kernel_point_nan dev eps L wo hwo cl cl radius hok influence hcin hnk hkp f no g G hG c c hself 0 hnk h0
  simpa using this

/-- **C154, the repulsive loss has derivatives** (Gaussian interpolation): it is differentiable in the offset weights at every
value of them; the gradients of `C154_regularization_nan` are lost in the differentiation, not in the loss. -/
theorem C154_repulsion_differentiable (L : KPLayer (k + 2)) (hi : L.interp = .gaussian)
    (cin cout : Cloud (Fin (k + 2) → ℝ)) (radius sigma : ℝ) (wo : ℝ → ℕ → ℕ → ℝ) (t₀ : ℝ)
    (hwo : ∀ x y, DifferentiableAt ℝ (fun t => wo t x y) t₀) (f : Fin cin.n → ℕ → ℝ) :
    DifferentiableAt ℝ (fun t => kpRep (L.at (fun _ => L.weights) wo t) (wo t) sigma cin cout radius f) t₀ := by
  have hoff := fun c b d => kpOffset_diff L (fun _ => L.weights) wo t₀ hwo sigma cin cout radius (fun _ => f)
    (fun p ch => differentiableAt_const _) c b d
  unfold kpRep
  change DifferentiableAt ℝ (fun t => ∑ c : Fin cout.n, ∑ b ∈ Finset.range L.nk, ∑ b' ∈ Finset.range L.nk,
    if b = b' then 0 else L.interp.weight (norm2 (fun d =>
      kpPos (L.at (fun _ => L.weights) wo t) (wo t) sigma cin cout radius f c b d -
        kpPos (L.at (fun _ => L.weights) wo t) (wo t) sigma cin cout radius f c b' d)) sigma) t₀
  refine DifferentiableAt.fun_sum fun c _ => DifferentiableAt.fun_sum fun b _ => DifferentiableAt.fun_sum fun b' _ => ?_
  split
  · exact differentiableAt_const _
  · rw [hi]
    unfold Interp.weight norm2
    dsimp only
    simp only [div_pow]
    have hsq : ∀ t, (Real.sqrt (∑ d, (kpPos (L.at (fun _ => L.weights) wo t) (wo t) sigma cin cout radius f c b d -
        kpPos (L.at (fun _ => L.weights) wo t) (wo t) sigma cin cout radius f c b' d) ^ 2)) ^ 2 =
        ∑ d, (kpPos (L.at (fun _ => L.weights) wo t) (wo t) sigma cin cout radius f c b d -
        kpPos (L.at (fun _ => L.weights) wo t) (wo t) sigma cin cout radius f c b' d) ^ 2 :=
      fun t => Real.sq_sqrt (Finset.sum_nonneg fun d _ => sq_nonneg _)
    simp only [hsq]
    have hd : DifferentiableAt ℝ (fun t => ∑ d, (kpPos (L.at (fun _ => L.weights) wo t) (wo t) sigma cin cout radius f c b d -
        kpPos (L.at (fun _ => L.weights) wo t) (wo t) sigma cin cout radius f c b' d) ^ 2) t₀ := by
      refine DifferentiableAt.fun_sum fun d _ => DifferentiableAt.fun_pow ?_ 2
      exact ((differentiableAt_const _).add (hoff c b d)).sub ((differentiableAt_const _).add (hoff c b' d))
    exact (hd.div_const _).neg.exp

end

/-- One kernel point, at the centre, not displaced. -/
def zeroDeform : KPLayer 2 := ⟨1, 1, 1, fun _ _ => 0, .linear, fun _ _ => 1, some (fun _ _ => 1)⟩

/-- The gradients of every deformable layer with respect to every offset weight are numbers: of a loss of the outputs, … -/
theorem C154_offset_weights_false : ¬ ∀ (L : KPLayer 2) (wo : ℕ → ℕ → ℝ), L.offs = some wo → 0 < L.cin → 0 < L.nk → L.nkp = L.nk →
    ∀ (cin cout : Cloud (Fin 2 → ℝ)) (radius eps : ℝ), LayerOk cin cout radius eps →
    ∀ (f : Fin cin.n → ℕ → ℝ) (no : ℕ) (g : ℕ → ℕ → ℝ) (G : KPGrads),
      L.callGrads (k := 0) .gpu eps cin cout radius none f no g = .ok G →
      ∀ r < L.cin * L.nk, ∀ s < L.nk * 2, ∃ D, G.conv r s = .fin D := by
  intro H
  obtain ⟨G, hG⟩ := callGrads_returns (k := 0) (1 / 100) zeroDeform _ rfl oneCloud oneCloud 1 oneCloud_ok none Nat.one_pos
    Nat.one_pos rfl Nat.one_pos (fun _ => Nat.one_pos) (fun _ _ => 0) 1 (fun _ _ => 1)
  obtain ⟨D, hD⟩ := H zeroDeform _ rfl Nat.one_pos Nat.one_pos rfl oneCloud oneCloud 1 (1 / 100) oneCloud_ok _ _ _ G hG
    0 Nat.one_pos 0 (by decide)
  have := (C154_zero_features_nan (k := 0) .gpu (1 / 100) zeroDeform _ rfl oneCloud 1 oneCloud_ok none Nat.one_pos
    Nat.one_pos rfl (fun _ => rfl) (fun _ _ => 0) 1 (fun _ _ => 1) G hG (0 : Fin 1) (fun _ _ _ _ => rfl)).1 0 Nat.one_pos 0
    (by decide)
  rw [hD] at this
  cases this

/-- … and of the regularization loss. -/
theorem C154_regularization_false : ¬ ∀ (L : KPLayer 2) (wo : ℕ → ℕ → ℝ), L.offs = some wo → 0 < L.cin → 0 < L.nk → L.nkp = L.nk →
    ∀ (cin cout : Cloud (Fin 2 → ℝ)) (radius eps : ℝ), LayerOk cin cout radius eps →
    ∀ (f : Fin cin.n → ℕ → ℝ) (no : ℕ) (g : ℕ → ℕ → ℝ) (G : KPGrads),
      L.callGrads (k := 0) .gpu eps cin cout radius none f no g = .ok G →
      ∀ r < L.cin * L.nk, ∀ s < L.nk * 2, ∃ D, G.reg r s = .fin D := by
  intro H
  obtain ⟨G, hG⟩ := callGrads_returns (k := 0) (1 / 100) zeroDeform _ rfl oneCloud oneCloud 1 oneCloud_ok none Nat.one_pos
    Nat.one_pos rfl Nat.one_pos (fun _ => Nat.one_pos) (fun _ _ => 1) 1 (fun _ _ => 1)
  obtain ⟨D, hD⟩ := H zeroDeform _ rfl Nat.one_pos Nat.one_pos rfl oneCloud oneCloud 1 (1 / 100) oneCloud_ok _ _ _ G hG
    0 Nat.one_pos 0 (by decide)
  have := (C154_regularization_nan (k := 0) .gpu (1 / 100) zeroDeform _ rfl oneCloud oneCloud 1 oneCloud_ok none Nat.one_pos
    Nat.one_pos rfl Nat.one_pos (fun _ _ => 1) 1 (fun _ _ => 1) G hG).1 0 0 (by decide)
  rw [hD] at this
  cases this

/-- The hypotheses of the partial theorems can be met: the neighbour is at the distance one half of the only kernel point. -/
noncomputable def halfDeform : KPLayer 2 := ⟨1, 1, 1, fun _ d => if d = 0 then 1 / 2 else 0, .linear, fun _ _ => 1, some (fun _ _ => 0)⟩

theorem halfDeform_dist (c p : Fin 1) :
    kpDist (k := 0) halfDeform (fun _ _ => 0) 1 oneCloud oneCloud 1 (fun _ _ => 3) c p 0 = 1 / 2 := by
  have ho : ∀ d : Fin 2, kpOffset halfDeform (fun _ _ => 0) 1 oneCloud oneCloud 1 (fun _ _ => 3) c 0 d = 0 := by
    intro d; unfold kpOffset; simp
  unfold kpDist norm2 halfDeform at *
  simp only [ho]
  rw [Fin.sum_univ_two]
  simp

example : (∀ (c : Fin oneCloud.n), ∀ p ∈ nbrs oneCloud oneCloud 1 c, ∀ b < halfDeform.nk,
      kpDist (k := 0) halfDeform (fun _ _ => 0) (kpSigma none 1) oneCloud oneCloud 1 (fun _ _ => 3) c p b ≠ 0 ∧
        (halfDeform.interp = .linear →
        kpDist (k := 0) halfDeform (fun _ _ => 0) (kpSigma none 1) oneCloud oneCloud 1 (fun _ _ => 3) c p b ≠ kpSigma none 1)) ∧
    (∀ c : Fin 1, (nbrs oneCloud oneCloud 1 c).Nonempty) := by
  refine ⟨fun c p _ b hb => ?_, fun c => ⟨0, by rw [oneCloud_nbrs]; simp⟩⟩
  obtain rfl : b = 0 := Nat.lt_one_iff.1 hb
  have h := halfDeform_dist c p
  have hs : kpSigma none 1 = 1 := rfl
  rw [hs, h]
  norm_num

/-! ## Gradients with respect to the points -/

/-- Points with `t` added to one coordinate. -/
def bumpP {n D : ℕ} (P : Fin n → Fin D → ℝ) (p₀ : Fin n) (d₀ : Fin D) (t : ℝ) (p : Fin n) (d : Fin D) : ℝ :=
  P p d + if p = p₀ ∧ d = d₀ then t else 0

theorem bumpP_zero {n D : ℕ} (P : Fin n → Fin D → ℝ) (p₀ : Fin n) (d₀ : Fin D) : bumpP P p₀ d₀ 0 = P := by
  funext x y; simp [bumpP]

/-- **C154, convolution weights**: for rigid and deformable layers, every input and every entry of the weights, if the layer returns
then the gradient is the partial derivative of the loss (without exceptions: the output is linear in the weights). -/
theorem C154_conv_weights {D n m nf : ℕ} (L : KPLayer D) (sigma : ℝ) (pairs : List (Fin n × Fin m))
    (input : Fin pairs.length → Fin D → ℝ) (f : Fin nf → ℕ → ℝ) (no : ℕ) (g : ℕ → ℕ → ℝ) (x₀ o₀ : ℕ) (hx : x₀ < L.cin * L.nk)
    (ho : o₀ < no) (rows : ℕ) (out : ℝ → ℕ → ℕ → ℝ)
    (h : ∀ t, ({ L with weights := fun x o => L.weights x o + if x = x₀ ∧ o = o₀ then t else 0 } : KPLayer D).conv sigma pairs input f =
      .ok (rows, out t)) :
    ∃ G, L.convWeightGrad sigma pairs input f g = .ok G ∧
      HasDerivAt (fun t => ∑ r ∈ Finset.range rows, ∑ o ∈ Finset.range no, g r o * out t r o) (G x₀ o₀) 0 := by
  have hc : ∀ t, ({ L with weights := fun x o => L.weights x o + if x = x₀ ∧ o = o₀ then t else 0 } : KPLayer D).conv sigma pairs input f =
      match L.offsets sigma pairs input f with
      | .error e => .error e
      | .ok off =>
        match kpProject L.cin L.nk L.nkp pairs (fun j => L.weightRow sigma (input j) (off j)) f with
        | .error e => .error e
        | .ok (rows, wf) => .ok (rows, fun r o => ∑ x ∈ Finset.range (L.cin * L.nk), wf r x *
            (L.weights x o + if x = x₀ ∧ o = o₀ then t else 0)) := fun t => rfl
  simp only [hc] at h
  unfold KPLayer.convWeightGrad
  cases hoff : L.offsets sigma pairs input f with
  | error e => rw [hoff] at h; exact absurd (h 0) (by simp)
  | ok off =>
    rw [hoff] at h
    dsimp only at h ⊢
    cases hp : kpProject L.cin L.nk L.nkp pairs (fun j => L.weightRow sigma (input j) (off j)) f with
    | error e => rw [hp] at h; exact absurd (h 0) (by simp)
    | ok rw' =>
      obtain ⟨rows', wf⟩ := rw'
      rw [hp] at h
      dsimp only at h ⊢
      have h1 : rows' = rows := (Prod.mk.inj (Except.ok.inj (h 0))).1
      subst h1
      have h2 : ∀ t, out t = fun r o => ∑ x ∈ Finset.range (L.cin * L.nk), wf r x *
            (L.weights x o + if x = x₀ ∧ o = o₀ then t else 0) := fun t => (Prod.mk.inj (Except.ok.inj (h t))).2.symm
      refine ⟨_, rfl, ?_⟩
      simp only [h2]
      refine HasDerivAt.fun_sum fun r _ => ?_
      have hsum : ∀ t, ∑ o ∈ Finset.range no, g r o * ∑ x ∈ Finset.range (L.cin * L.nk), wf r x *
            (L.weights x o + if x = x₀ ∧ o = o₀ then t else 0) =
          (∑ o ∈ Finset.range no, g r o * ∑ x ∈ Finset.range (L.cin * L.nk), wf r x * L.weights x o) + wf r x₀ * g r o₀ * t := by
        intro t
        have e1 : ∀ o, ∑ x ∈ Finset.range (L.cin * L.nk), wf r x * (L.weights x o + if x = x₀ ∧ o = o₀ then t else 0) =
            ∑ x ∈ Finset.range (L.cin * L.nk), wf r x * L.weights x o + if o = o₀ then wf r x₀ * t else 0 := by
          intro o
          simp only [mul_add, Finset.sum_add_distrib]
          congr 1
          by_cases hoo : o = o₀
          · rw [if_pos hoo, Finset.sum_eq_single x₀]
            · rw [if_pos ⟨rfl, hoo⟩]
            · intro x _ hne; rw [if_neg (fun h => hne h.1), mul_zero]
            · intro hn; exact absurd (Finset.mem_range.mpr hx) hn
          · rw [if_neg hoo]
            refine Finset.sum_eq_zero fun x _ => ?_
            rw [if_neg (fun h => hoo h.2), mul_zero]
        rw [Finset.sum_congr rfl fun o _ => by rw [e1 o, mul_add], Finset.sum_add_distrib]
        congr 1
        rw [Finset.sum_eq_single o₀]
        · rw [if_pos rfl]; ring
        · intro o _ hne; rw [if_neg hne, mul_zero]
        · intro hn; exact absurd (Finset.mem_range.mpr ho) hn
      simp only [hsum]
      have := ((hasDerivAt_id' (0 : ℝ)).const_mul (wf r x₀ * g r o₀)).const_add
        (∑ o ∈ Finset.range no, g r o * ∑ x ∈ Finset.range (L.cin * L.nk), wf r x * L.weights x o)
      rwa [mul_one] at this

theorem sum_swap_weights (O C B : Finset ℕ) (g : ℕ → ℝ) (f : ℕ → ℝ) (W : ℕ → ℕ → ℕ → ℝ) (y : ℕ → ℝ) :
    ∑ o ∈ O, g o * ∑ ch ∈ C, ∑ b ∈ B, f ch * y b * W ch b o = ∑ b ∈ B, (∑ ch ∈ C, f ch * ∑ o ∈ O, g o * W ch b o) * y b := by
  simp only [Finset.mul_sum, Finset.sum_mul]
  rw [Finset.sum_comm]
  conv_rhs => rw [Finset.sum_comm]
  refine Finset.sum_congr rfl fun ch _ => ?_
  rw [Finset.sum_comm]
  refine Finset.sum_congr rfl fun b _ => Finset.sum_congr rfl fun o _ => ?_
  ring

/-- **C154, motions of the points of a rigid layer.** Under the conditions of `C154_points_partial` the gradients with respect to
all coordinates of input and output points are numbers, and they give the derivative of the loss along every motion of the input
points (with velocities `A`) and the output points (with velocities `B`), for example of one cloud used as both. -/
theorem C154_motion_partial {D n m : ℕ} (L : KPLayer D) (hoffs : L.offs = none) (sigma radius : ℝ) (hs : sigma ≠ 0)
    (hr : radius ≠ 0) (hcin : 0 < L.cin) (hnk : 0 < L.nk) (hkp : L.nkp = L.nk) (pairs : List (Fin n × Fin m)) (hnd : pairs.Nodup)
    (P : Fin n → Fin D → ℝ) (Q : Fin m → Fin D → ℝ) (f : Fin n → ℕ → ℝ) (no : ℕ) (g : ℕ → ℕ → ℝ)
    (hne : ∀ p c, (p, c) ∈ pairs → ∀ b < L.nk,
      norm2 (fun d => (P p d - Q c d) / radius - L.kp b d) ≠ 0 ∧ (L.interp = .linear →
        norm2 (fun d => (P p d - Q c d) / radius - L.kp b d) ≠ sigma)) :
    ∃ (G1 : Fin n → Fin D → ℝ) (G2 : Fin m → Fin D → ℝ),
      (∀ p d, (L.pointGrads sigma radius pairs (fun j d => (P (pairs.get j).1 d - Q (pairs.get j).2 d) / radius) f no g).1 p.val d =
        .fin (G1 p d)) ∧
      (∀ c d, (L.pointGrads sigma radius pairs (fun j d => (P (pairs.get j).1 d - Q (pairs.get j).2 d) / radius) f no g).2 c.val d =
        .fin (G2 c d)) ∧
      ∀ (A : Fin n → Fin D → ℝ) (B : Fin m → Fin D → ℝ) (out : ℝ → ℕ × (ℕ → ℕ → ℝ)),
        (∀ t, L.conv sigma pairs (fun j d => ((P (pairs.get j).1 d + t * A (pairs.get j).1 d) -
          (Q (pairs.get j).2 d + t * B (pairs.get j).2 d)) / radius) f = .ok (out t)) →
        HasDerivAt (fun t => ∑ c : Fin m, ∑ o ∈ Finset.range no, g c.val o * (out t).2 c.val o)
          (∑ p, ∑ d, G1 p d * A p d + ∑ c, ∑ d, G2 c d * B c d) 0 := by
  set S : Fin m → Finset (Fin n) := fun c => Finset.univ.filter (fun p => (p, c) ∈ pairs) with hSdef
  have hS : ∀ p c, (p, c) ∈ pairs ↔ p ∈ S c := by
    intro p c; simp [hSdef]
  have hkw : ∀ j b, ∑ ch ∈ Finset.range L.cin, gatherD f (pairs.get j).1.val ch *
      ∑ o ∈ Finset.range no, g (pairs.get j).2.val o * L.weights (ch * L.nk + b) o =
      kgW L f no g (pairs.get j).1 (pairs.get j).2 b := by
    intro j b; simp only [gatherD_fin]; rfl
  set H : Fin n → Fin m → Fin D → ℝ := fun p c d => ∑ b ∈ Finset.range L.nk, kgW L f no g p c b *
        L.interp.dWeight (norm2 (fun d => (P p d - Q c d) / radius - L.kp b d)) sigma *
        (((P p d - Q c d) / radius - L.kp b d) / norm2 (fun d => (P p d - Q c d) / radius - L.kp b d)) with hH
  have hin : ∀ j d, L.inputGrad sigma pairs (fun j d => (P (pairs.get j).1 d - Q (pairs.get j).2 d) / radius) f no g j d =
      .fin (H (pairs.get j).1 (pairs.get j).2 d) := by
    intro j d
    unfold KPLayer.inputGrad KPLayer.distGradConv
    simp only [hkw]
    rw [hH, ← Flt.sum_fin]
    refine Finset.sum_congr rfl fun b hb => ?_
    rw [weightGrad_fin _ _ _ _ hs, normGrad_fin _ (hne _ _ (List.get_mem pairs j) b (Finset.mem_range.1 hb)).1]
  have hite : ∀ (q : Prop) [Decidable q] (x : ℝ), (if q then Flt.fin x else 0) = Flt.fin (if q then x else 0) := by
    intro q _ x; split <;> rfl
  have e1 : ∀ (p : Fin n) d, (L.pointGrads sigma radius pairs (fun j d => (P (pairs.get j).1 d - Q (pairs.get j).2 d) / radius) f no g).1 p.val d =
      .fin (∑ c, if p ∈ S c then H p c d / radius else 0) := by
    intro p d
    unfold KPLayer.pointGrads
    simp only [hin, Flt.div, if_neg hr, hite, Flt.sum_fin]
    rw [sum_point S pairs hnd hS (fun p c => H p c d / radius) p]
  have e2 : ∀ (c : Fin m) d, (L.pointGrads sigma radius pairs (fun j d => (P (pairs.get j).1 d - Q (pairs.get j).2 d) / radius) f no g).2 c.val d =
      .fin (∑ p ∈ S c, -(H p c d / radius)) := by
    intro c d
    unfold KPLayer.pointGrads
    simp only [hin, Flt.div, Flt.neg, if_neg hr, hite, Flt.sum_fin]
    rw [sum_pairs pairs hnd S hS (fun p c' => if c'.val = c.val then -(H p c' d / radius) else 0), Finset.sum_eq_single c]
    · simp
    · intro c' _ hc'
      refine Finset.sum_eq_zero fun p _ => ?_
      rw [if_neg (fun h => hc' (Fin.ext h))]
    · simp
  refine ⟨_, _, e1, e2, ?_⟩
  intro A B out h
  set X : ℝ → Fin n → Fin m → Fin D → ℝ := fun t p c d => ((P p d + t * A p d) - (Q c d + t * B c d)) / radius with hX
  have hX0 : ∀ p c d, X 0 p c d = (P p d - Q c d) / radius := by
    intro p c d; simp [hX]
  have hout : ∀ t (c : Fin m) o, (out t).2 c.val o = ∑ p ∈ S c,
      ∑ ch ∈ Finset.range L.cin, ∑ b ∈ Finset.range L.nk, f p ch *
        L.interp.weight (norm2 (fun d => X t p c d - L.kp b d)) sigma * L.weights (ch * L.nk + b) o := by
    intro t c o
    obtain ⟨out', ho, hv⟩ := kpConv_eq L sigma hcin hnk hkp pairs hnd S (fun c => rfl) (fun p c d => X t p c d) f
    have e : out t = (m, out') := Except.ok.inj ((h t).symm.trans ho)
    rw [e]
    dsimp only
    rw [hv]
    unfold kpOffOf
    simp only [hoffs, add_zero]
  simp only [hout]
  have hx : ∀ p c d, HasDerivAt (fun t => X t p c d) ((A p d - B c d) / radius) 0 := by
    intro p c d
    have h1 : HasDerivAt (fun t => P p d + t * A p d) (A p d) 0 := by
      have := ((hasDerivAt_id' (0 : ℝ)).mul_const (A p d)).const_add (P p d)
      rwa [one_mul] at this
    have h2 : HasDerivAt (fun t => Q c d + t * B c d) (B c d) 0 := by
      have := ((hasDerivAt_id' (0 : ℝ)).mul_const (B c d)).const_add (Q c d)
      rwa [one_mul] at this
    exact (h1.sub h2).div_const radius
  have hw : ∀ p (c : Fin m), p ∈ S c → ∀ b < L.nk, HasDerivAt
      (fun t => L.interp.weight (norm2 (fun d => X t p c d - L.kp b d)) sigma)
      (L.interp.dWeight (norm2 (fun d => (P p d - Q c d) / radius - L.kp b d)) sigma *
        ∑ d, ((P p d - Q c d) / radius - L.kp b d) / norm2 (fun d => (P p d - Q c d) / radius - L.kp b d) *
          ((A p d - B c d) / radius)) 0 := by
    intro p c hp b hb
    obtain ⟨h0, h1⟩ := hne p c ((hS p c).2 hp) b hb
    have e0 : (fun d => X 0 p c d - L.kp b d) = fun d => (P p d - Q c d) / radius - L.kp b d := by
      funext d; rw [hX0]
    have hd := norm2_hasDeriv (fun t d => X t p c d - L.kp b d) (fun d => (A p d - B c d) / radius) 0
      (fun d => (hx p c d).sub_const _) (by rw [e0]; exact h0)
    rw [e0] at hd
    have e0' : ∀ d, X 0 p c d - L.kp b d = (P p d - Q c d) / radius - L.kp b d := fun d => by rw [hX0]
    simp only [e0'] at hd
    have hw1 := weight_hasDeriv L.interp _ sigma hs h1
    have e1 : norm2 (fun d => (P p d - Q c d) / radius - L.kp b d) = (fun t => norm2 (fun d => X t p c d - L.kp b d)) 0 := by
      dsimp only; rw [e0]
    rw [e1] at hw1
    have := hw1.comp 0 hd
    rw [← e1] at this
    exact this
  have hmain : HasDerivAt (fun t => ∑ c : Fin m, ∑ o ∈ Finset.range no, g c.val o *
      ∑ p ∈ S c, ∑ ch ∈ Finset.range L.cin, ∑ b ∈ Finset.range L.nk, f p ch *
        L.interp.weight (norm2 (fun d => X t p c d - L.kp b d)) sigma * L.weights (ch * L.nk + b) o)
      (∑ c : Fin m, ∑ o ∈ Finset.range no, g c.val o *
      ∑ p ∈ S c, ∑ ch ∈ Finset.range L.cin, ∑ b ∈ Finset.range L.nk, f p ch *
        (L.interp.dWeight (norm2 (fun d => (P p d - Q c d) / radius - L.kp b d)) sigma *
        ∑ d, ((P p d - Q c d) / radius - L.kp b d) / norm2 (fun d => (P p d - Q c d) / radius - L.kp b d) *
          ((A p d - B c d) / radius)) * L.weights (ch * L.nk + b) o) 0 := by
    refine HasDerivAt.fun_sum fun c _ => HasDerivAt.fun_sum fun o _ => HasDerivAt.const_mul _ ?_
    refine HasDerivAt.fun_sum fun p hp => HasDerivAt.fun_sum fun ch _ => HasDerivAt.fun_sum fun b hb => ?_
    exact ((hw p c hp b (Finset.mem_range.1 hb)).const_mul _).mul_const _
  have hval : (∑ c : Fin m, ∑ o ∈ Finset.range no, g c.val o *
      ∑ p ∈ S c, ∑ ch ∈ Finset.range L.cin, ∑ b ∈ Finset.range L.nk, f p ch *
        (L.interp.dWeight (norm2 (fun d => (P p d - Q c d) / radius - L.kp b d)) sigma *
        ∑ d, ((P p d - Q c d) / radius - L.kp b d) / norm2 (fun d => (P p d - Q c d) / radius - L.kp b d) *
          ((A p d - B c d) / radius)) * L.weights (ch * L.nk + b) o) =
      ∑ c, ∑ p ∈ S c, ∑ d, H p c d * ((A p d - B c d) / radius) := by
    refine Finset.sum_congr rfl fun c _ => ?_
    have : ∀ o (T : Fin n → ℝ), g c.val o * ∑ p ∈ S c, T p = ∑ p ∈ S c, g c.val o * T p := fun o T => Finset.mul_sum _ _ _
    simp only [this]
    rw [Finset.sum_comm]
    refine Finset.sum_congr rfl fun p _ => ?_
    rw [sum_swap_weights (Finset.range no) (Finset.range L.cin) (Finset.range L.nk) (fun o => g c.val o) (fun ch => f p ch)
      (fun ch b o => L.weights (ch * L.nk + b) o)]
    conv_rhs =>
      simp only [hH, Finset.sum_mul]
      rw [Finset.sum_comm]
    refine Finset.sum_congr rfl fun b _ => ?_
    show kgW L f no g p c b * _ = _
    rw [Finset.mul_sum, Finset.mul_sum]
    refine Finset.sum_congr rfl fun d _ => ?_
    ring
  rw [hval] at hmain
  convert hmain using 1
  have s1 : ∑ p, ∑ d, (∑ c, if p ∈ S c then H p c d / radius else 0) * A p d =
      ∑ c, ∑ p ∈ S c, ∑ d, H p c d / radius * A p d := by
    simp only [Finset.sum_mul, ite_mul, zero_mul]
    refine (Finset.sum_congr rfl (fun p _ => Finset.sum_comm)).trans ?_
    rw [Finset.sum_comm]
    refine Finset.sum_congr rfl fun c _ => ?_
    have : ∀ p, (∑ d, if p ∈ S c then H p c d / radius * A p d else 0) =
        if p ∈ S c then ∑ d, H p c d / radius * A p d else 0 := by
      intro p; split <;> simp
    simp only [this]
    rw [← Finset.sum_filter]
    refine Finset.sum_congr ?_ fun _ _ => rfl
    ext p; simp
  have s2 : ∑ c, ∑ d, (∑ p ∈ S c, -(H p c d / radius)) * B c d = ∑ c, ∑ p ∈ S c, ∑ d, -(H p c d / radius) * B c d := by
    refine Finset.sum_congr rfl fun c _ => ?_
    simp only [Finset.sum_mul]
    rw [Finset.sum_comm]
  rw [s1, s2, ← Finset.sum_add_distrib]
  refine Finset.sum_congr rfl fun c _ => ?_
  rw [← Finset.sum_add_distrib]
  refine Finset.sum_congr rfl fun p _ => ?_
  rw [← Finset.sum_add_distrib]
  refine Finset.sum_congr rfl fun d _ => ?_
  ring

/-- **C154, points of a rigid layer.** With a given neighbourhood (its pairs do not change with the points), and where
no neighbour lies on a kernel point or, with linear interpolation, exactly at the influence distance, the gradient with respect
to a coordinate of an input point is a number, and it is the partial derivative of the loss. -/
theorem C154_points_partial {D n m : ℕ} (L : KPLayer D) (hoffs : L.offs = none) (sigma radius : ℝ) (hs : sigma ≠ 0)
    (hr : radius ≠ 0) (hcin : 0 < L.cin) (hnk : 0 < L.nk) (hkp : L.nkp = L.nk) (pairs : List (Fin n × Fin m)) (hnd : pairs.Nodup)
    (P : Fin n → Fin D → ℝ) (Q : Fin m → Fin D → ℝ) (f : Fin n → ℕ → ℝ) (no : ℕ) (g : ℕ → ℕ → ℝ)
    (hne : ∀ p c, (p, c) ∈ pairs → ∀ b < L.nk,
      norm2 (fun d => (P p d - Q c d) / radius - L.kp b d) ≠ 0 ∧ (L.interp = .linear →
        norm2 (fun d => (P p d - Q c d) / radius - L.kp b d) ≠ sigma))
    (p₀ : Fin n) (d₀ : Fin D) (out : ℝ → ℕ × (ℕ → ℕ → ℝ))
    (h : ∀ t, L.conv sigma pairs (fun j d => (bumpP P p₀ d₀ t (pairs.get j).1 d - Q (pairs.get j).2 d) / radius) f = .ok (out t)) :
    ∃ Δ, (L.pointGrads sigma radius pairs (fun j d => (P (pairs.get j).1 d - Q (pairs.get j).2 d) / radius) f no g).1 p₀.val d₀ =
        .fin Δ ∧
      HasDerivAt (fun t => ∑ c : Fin m, ∑ o ∈ Finset.range no, g c.val o * (out t).2 c.val o) Δ 0 := by
  have hS : ∀ p c, (p, c) ∈ pairs ↔ p ∈ Finset.univ.filter (fun p => (p, c) ∈ pairs) := by
    intro p c; simp
  have hkw : ∀ j b, ∑ ch ∈ Finset.range L.cin, gatherD f (pairs.get j).1.val ch *
      ∑ o ∈ Finset.range no, g (pairs.get j).2.val o * L.weights (ch * L.nk + b) o =
      kgW L f no g (pairs.get j).1 (pairs.get j).2 b := by
    intro j b; simp only [gatherD_fin]; rfl
  have hin : ∀ j, L.inputGrad sigma pairs (fun j d => (P (pairs.get j).1 d - Q (pairs.get j).2 d) / radius) f no g j d₀ =
      .fin (∑ b ∈ Finset.range L.nk, kgW L f no g (pairs.get j).1 (pairs.get j).2 b *
        L.interp.dWeight (norm2 (fun d => (P (pairs.get j).1 d - Q (pairs.get j).2 d) / radius - L.kp b d)) sigma *
        (((P (pairs.get j).1 d₀ - Q (pairs.get j).2 d₀) / radius - L.kp b d₀) /
          norm2 (fun d => (P (pairs.get j).1 d - Q (pairs.get j).2 d) / radius - L.kp b d))) := by
    intro j
    unfold KPLayer.inputGrad KPLayer.distGradConv
    simp only [hkw]
    rw [← Flt.sum_fin]
    refine Finset.sum_congr rfl fun b hb => ?_
    rw [weightGrad_fin _ _ _ _ hs, normGrad_fin _ (hne _ _ (List.get_mem pairs j) b (Finset.mem_range.1 hb)).1]
  have hite : ∀ (q : Prop) [Decidable q] (x : ℝ), (if q then Flt.fin x else 0) = Flt.fin (if q then x else 0) := by
    intro q _ x; split <;> rfl
  unfold KPLayer.pointGrads
  simp only [hin, Flt.div, if_neg hr, hite, Flt.sum_fin]
  refine ⟨_, rfl, ?_⟩
  rw [sum_point (fun c => Finset.univ.filter (fun p => (p, c) ∈ pairs)) pairs hnd hS (fun p c => (∑ b ∈ Finset.range L.nk, kgW L f no g p c b *
        L.interp.dWeight (norm2 (fun d => (P p d - Q c d) / radius - L.kp b d)) sigma *
        (((P p d₀ - Q c d₀) / radius - L.kp b d₀) /
          norm2 (fun d => (P p d - Q c d) / radius - L.kp b d))) / radius) p₀]
  have hout : ∀ t (c : Fin m) o, (out t).2 c.val o = ∑ p ∈ Finset.univ.filter (fun p => (p, c) ∈ pairs),
      ∑ ch ∈ Finset.range L.cin, ∑ b ∈ Finset.range L.nk, f p ch *
        L.interp.weight (norm2 (fun d => (bumpP P p₀ d₀ t p d - Q c d) / radius - L.kp b d)) sigma *
          L.weights (ch * L.nk + b) o := by
    intro t c o
    obtain ⟨out', ho, hv⟩ := kpConv_eq L sigma hcin hnk hkp pairs hnd (fun c => Finset.univ.filter (fun p => (p, c) ∈ pairs))
      (fun c => rfl) (fun p c d => (bumpP P p₀ d₀ t p d - Q c d) / radius) f
    have e : out t = (m, out') := Except.ok.inj ((h t).symm.trans ho)
    rw [e]
    dsimp only
    rw [hv]
    unfold kpOffOf
    simp only [hoffs, add_zero]
  simp only [hout]
  have hx : ∀ p c d, HasDerivAt (fun t => (bumpP P p₀ d₀ t p d - Q c d) / radius) (if p = p₀ ∧ d = d₀ then 1 / radius else 0) 0 := by
    intro p c d
    have h1 : HasDerivAt (fun t => bumpP P p₀ d₀ t p d) (if p = p₀ ∧ d = d₀ then 1 else 0) 0 := by
      unfold bumpP
      refine HasDerivAt.const_add _ ?_
      split
      · exact hasDerivAt_id' _
      · exact hasDerivAt_const _ _
    have e : (if p = p₀ ∧ d = d₀ then 1 / radius else 0) = (if p = p₀ ∧ d = d₀ then 1 else 0) / radius := by
      split <;> simp
    rw [e]
    exact (h1.sub_const (Q c d)).div_const radius
  have hw : ∀ p (c : Fin m), (p, c) ∈ pairs → ∀ b < L.nk, HasDerivAt
      (fun t => L.interp.weight (norm2 (fun d => (bumpP P p₀ d₀ t p d - Q c d) / radius - L.kp b d)) sigma)
      (L.interp.dWeight (norm2 (fun d => (P p d - Q c d) / radius - L.kp b d)) sigma *
        ∑ d, ((P p d - Q c d) / radius - L.kp b d) / norm2 (fun d => (P p d - Q c d) / radius - L.kp b d) *
          (if p = p₀ ∧ d = d₀ then 1 / radius else 0)) 0 := by
    intro p c hp b hb
    obtain ⟨h0, h1⟩ := hne p c hp b hb
    have hd := norm2_hasDeriv (fun t d => (bumpP P p₀ d₀ t p d - Q c d) / radius - L.kp b d)
      (fun d => if p = p₀ ∧ d = d₀ then 1 / radius else 0) 0
      (fun d => (hx p c d).sub_const _) (by rw [bumpP_zero]; exact h0)
    rw [bumpP_zero] at hd
    have hw1 := weight_hasDeriv L.interp _ sigma hs h1
    have e0 : norm2 (fun d => (P p d - Q c d) / radius - L.kp b d) =
        (fun t => norm2 (fun d => (bumpP P p₀ d₀ t p d - Q c d) / radius - L.kp b d)) 0 := by
      dsimp only; rw [bumpP_zero]
    have hw2 := hw1
    rw [e0] at hw1
    have := hw1.comp 0 hd
    rw [← e0] at this
    exact this
  have hmain : HasDerivAt (fun t => ∑ c : Fin m, ∑ o ∈ Finset.range no, g c.val o *
      ∑ p ∈ Finset.univ.filter (fun p => (p, c) ∈ pairs), ∑ ch ∈ Finset.range L.cin, ∑ b ∈ Finset.range L.nk, f p ch *
        L.interp.weight (norm2 (fun d => (bumpP P p₀ d₀ t p d - Q c d) / radius - L.kp b d)) sigma *
          L.weights (ch * L.nk + b) o)
      (∑ c : Fin m, ∑ o ∈ Finset.range no, g c.val o *
      ∑ p ∈ Finset.univ.filter (fun p => (p, c) ∈ pairs), ∑ ch ∈ Finset.range L.cin, ∑ b ∈ Finset.range L.nk, f p ch *
        (L.interp.dWeight (norm2 (fun d => (P p d - Q c d) / radius - L.kp b d)) sigma *
        ∑ d, ((P p d - Q c d) / radius - L.kp b d) / norm2 (fun d => (P p d - Q c d) / radius - L.kp b d) *
          (if p = p₀ ∧ d = d₀ then 1 / radius else 0)) *
          L.weights (ch * L.nk + b) o) 0 := by
    refine HasDerivAt.fun_sum fun c _ => HasDerivAt.fun_sum fun o _ => HasDerivAt.const_mul _ ?_
    refine HasDerivAt.fun_sum fun p hp => HasDerivAt.fun_sum fun ch _ => HasDerivAt.fun_sum fun b hb => ?_
    exact ((hw p c (by simpa using hp) b (Finset.mem_range.1 hb)).const_mul _).mul_const _
  convert hmain using 1
  refine Finset.sum_congr rfl fun c _ => ?_
  have hsel : ∀ p b, ∑ d, ((P p d - Q c d) / radius - L.kp b d) / norm2 (fun d => (P p d - Q c d) / radius - L.kp b d) *
          (if p = p₀ ∧ d = d₀ then 1 / radius else 0) = if p = p₀ then
        ((P p d₀ - Q c d₀) / radius - L.kp b d₀) / norm2 (fun d => (P p d - Q c d) / radius - L.kp b d) * (1 / radius) else 0 := by
    intro p b
    by_cases hp : p = p₀
    · rw [if_pos hp, Finset.sum_eq_single d₀]
      · rw [if_pos ⟨hp, rfl⟩]
      · intro d _ hd; rw [if_neg (fun h => hd h.2), mul_zero]
      · intro h; exact absurd (Finset.mem_univ _) h
    · rw [if_neg hp]
      refine Finset.sum_eq_zero fun d _ => ?_
      rw [if_neg (fun h => hp h.1), mul_zero]
  simp only [hsel]
  have hcol : ∀ o, ∑ p ∈ Finset.univ.filter (fun p => (p, c) ∈ pairs), ∑ ch ∈ Finset.range L.cin, ∑ b ∈ Finset.range L.nk, f p ch *
        (L.interp.dWeight (norm2 (fun d => (P p d - Q c d) / radius - L.kp b d)) sigma *
        if p = p₀ then ((P p d₀ - Q c d₀) / radius - L.kp b d₀) / norm2 (fun d => (P p d - Q c d) / radius - L.kp b d) * (1 / radius)
          else 0) * L.weights (ch * L.nk + b) o =
      if p₀ ∈ Finset.univ.filter (fun p => (p, c) ∈ pairs) then ∑ ch ∈ Finset.range L.cin, ∑ b ∈ Finset.range L.nk, f p₀ ch *
        (L.interp.dWeight (norm2 (fun d => (P p₀ d - Q c d) / radius - L.kp b d)) sigma *
        (((P p₀ d₀ - Q c d₀) / radius - L.kp b d₀) / norm2 (fun d => (P p₀ d - Q c d) / radius - L.kp b d) * (1 / radius)))
          * L.weights (ch * L.nk + b) o else 0 := by
    intro o
    split
    · rename_i hp
      rw [Finset.sum_eq_single p₀]
      · simp
      · intro p _ hp'; simp [hp']
      · intro h; exact absurd hp h
    · rename_i hp
      refine Finset.sum_eq_zero fun p hp' => Finset.sum_eq_zero fun ch _ => Finset.sum_eq_zero fun b _ => ?_
      have hpp : p ≠ p₀ := by rintro rfl; exact hp hp'
      rw [if_neg hpp, mul_zero, mul_zero, zero_mul]
  simp only [hcol]
  split
  · unfold kgW
    simp only [Finset.mul_sum, Finset.sum_mul, Finset.sum_div]
    rw [Finset.sum_comm]
    conv_rhs => rw [Finset.sum_comm]
    refine Finset.sum_congr rfl fun ch _ => ?_
    rw [Finset.sum_comm]
    refine Finset.sum_congr rfl fun o _ => Finset.sum_congr rfl fun b _ => ?_
    ring
  · simp

/-- **C154, points that are their own neighbours.** For every rigid layer with a kernel point at the centre, as the first
built-in one, called from a cloud to itself: the gradients with respect to every coordinate of every point are not numbers,
as input points and as output points, for every loss and all features and weights. -/
theorem C154_points_nan {k : ℕ} (dev : Device) (eps : ℝ) (L : KPLayer (k + 2)) (hnk : 0 < L.nk) (hz : ∀ d, L.kp 0 d = 0)
    (cl : Cloud (Fin (k + 2) → ℝ)) (radius : ℝ) (hok : LayerOk cl cl radius eps)
    (influence : Option ℝ) (f : Fin cl.n → ℕ → ℝ) (no : ℕ) (g : ℕ → ℕ → ℝ)
    (G : (ℕ → Fin (k + 2) → Flt ℝ) × (ℕ → Fin (k + 2) → Flt ℝ))
    (hG : L.callPointGrads dev eps cl cl radius influence f no g = .ok G) (p : Fin cl.n) (d : Fin (k + 2)) :
    G.1 p.val d = .nan ∧ G.2 p.val d = .nan := by
  unfold KPLayer.callPointGrads at hG
  cases hl : layerNbh dev eps cl cl radius with
  | error e => rw [hl] at hG; simp at hG
  | ok h =>
    rw [hl] at hG
    dsimp only at hG
    obtain rfl := Except.ok.inj hG
    obtain ⟨nb, hnh, hf⟩ := layerNbh_eq hl
    subst hnh
    obtain ⟨h1, h2⟩ := layer_ids hok hf
    have hself : p ∈ nbrs cl cl radius p := by
      rw [mem_nbrs]
      refine ⟨rfl, hok.radius_pos, ?_⟩
      simp only [sub_self]
      have := hok.radius_pos
      simp
      positivity
    obtain ⟨j, hj⟩ := List.mem_iff_get.1 ((h1 p p).2 hself)
    have hin : L.inputGrad (kpSigma influence radius)
        (⟨⟨cl, fun _ => radius, eps⟩, fun _ => radius, cl, false, nb⟩ : Nbh k ℝ).originalNeighIds
        (fun j d => (⟨⟨cl, fun _ => radius, eps⟩, fun _ => radius, cl, false, nb⟩ : Nbh k ℝ).diffs cl.pts cl.pts j d / radius)
        f no g j d = .nan := by
      unfold KPLayer.inputGrad
      refine Flt.sum_nan _ _ 0 (Finset.mem_range.2 hnk) (normGrad_zero _ ?_ _ _)
      have e : ∀ d', (⟨⟨cl, fun _ => radius, eps⟩, fun _ => radius, cl, false, nb⟩ : Nbh k ℝ).diffs cl.pts cl.pts j d' = 0 := by
        intro d'
        unfold Nbh.diffs
        have e1 := congrArg (fun x => x.1.val) hj
        have e2 := congrArg (fun x => x.2.val) hj
        dsimp only at e1 e2
        exact (congrArg₂ (fun a b => gatherD cl.pts a d' - gatherD cl.pts b d') e1 e2).trans (by simp)
      unfold norm2
      simp [hz, e]
    unfold KPLayer.pointGrads
    constructor
    · refine Flt.sum_nan _ _ j (Finset.mem_univ _) ?_
      rw [hin, hj, if_pos rfl]
      rfl
    · refine Flt.sum_nan _ _ j (Finset.mem_univ _) ?_
      rw [hin, hj, if_pos rfl]
      rfl

/-- The first built-in kernel point is at the centre, however they are turned. -/
theorem builtin_center (cin' nk : ℕ) (interp : Interp) (a : Fin 3 → ℝ) (w : ℕ → ℕ → ℝ) (offs : Option (ℕ → ℕ → ℝ)) (L : KPLayer 3)
    (h : KPLayer.builtin cin' nk interp a w offs = .ok L) : 0 < L.nk ∧ L.nkp = L.nk ∧ L.cin = cin' ∧ L.offs = offs ∧ ∀ d, L.kp 0 d = 0 := by
  unfold KPLayer.builtin sphericalKernelPoints at h
  cases hb : basePoints nk with
  | error e => rw [hb] at h; cases h
  | ok l =>
    rw [hb] at h
    dsimp only at h
    cases h
    obtain ⟨hl, hnk⟩ := basePoints_length hb
    have hhead : ∃ t, l = ![0, 0, 0] :: t := by
      unfold basePoints at hb
      split at hb
      · cases hb; exact ⟨_, rfl⟩
      split at hb
      · cases hb; exact ⟨_, rfl⟩
      split at hb
      · cases hb
      split at hb
      · cases hb; exact ⟨_, rfl⟩
      split at hb
      · cases hb; exact ⟨_, rfl⟩
      · cases hb
    obtain ⟨t, rfl⟩ := hhead
    refine ⟨hnk, by simpa [KPLayer.custom] using hl, rfl, rfl, fun d => ?_⟩
    have e0 : (![0, 0, 0] : Fin 3 → ℝ) = 0 := by ext i; fin_cases i <;> rfl
    simp [KPLayer.custom, rotPt, e0]

/-- **C154, built-in kernel points.** Every rigid layer as constructed by default, from a cloud to itself: no gradient with
respect to a point is a number. -/
theorem C154_builtin_points_nan (cin' nk : ℕ) (interp : Interp) (a : Fin 3 → ℝ) (w : ℕ → ℕ → ℝ) (L : KPLayer 3)
    (h : KPLayer.builtin cin' nk interp a w none = .ok L) (dev : Device) (eps : ℝ)
    (cl : Cloud (Fin (1 + 2) → ℝ)) (radius : ℝ) (hok : LayerOk cl cl radius eps)
    (influence : Option ℝ) (f : Fin cl.n → ℕ → ℝ) (no : ℕ) (g : ℕ → ℕ → ℝ)
    (G : (ℕ → Fin (1 + 2) → Flt ℝ) × (ℕ → Fin (1 + 2) → Flt ℝ))
    (hG : L.callPointGrads (k := 1) dev eps cl cl radius influence f no g = .ok G) (p : Fin cl.n) (d : Fin (1 + 2)) :
    G.1 p.val d = .nan ∧ G.2 p.val d = .nan :=
  let hb := builtin_center cin' nk interp a w none L h
  C154_points_nan (k := 1) dev eps L hb.1 hb.2.2.2.2 cl radius hok influence f no g G hG p d

/-- **C154, built-in kernel points, deformable.** -/
theorem C154_builtin_zero_features_nan (cin' nk : ℕ) (hcin : 0 < cin') (interp : Interp) (a : Fin 3 → ℝ) (w wo : ℕ → ℕ → ℝ) (L : KPLayer 3)
    (h : KPLayer.builtin cin' nk interp a w (some wo) = .ok L) (dev : Device) (eps : ℝ)
    (cl : Cloud (Fin (1 + 2) → ℝ)) (radius : ℝ) (hok : LayerOk cl cl radius eps)
    (influence : Option ℝ) (f : Fin cl.n → ℕ → ℝ) (no : ℕ) (g : ℕ → ℕ → ℝ) (G : KPGrads)
    (hG : L.callGrads (k := 1) dev eps cl cl radius influence f no g = .ok G)
    (c : Fin cl.n) (hf : ∀ p ∈ nbrs cl cl radius c, ∀ ch < L.cin, f p ch = 0) :
    (∀ r < L.cin * L.nk, ∀ d < 1 + 2, G.conv r d = .nan) ∧
      ∀ q ∈ nbrs cl cl radius c, ∀ ch < L.cin, G.convFeat q.val ch = .nan :=
  let hb := builtin_center cin' nk interp a w (some wo) L h
  C154_zero_features_nan (k := 1) dev eps L wo hb.2.2.2.1 cl radius hok influence (by rw [hb.2.2.1]; exact hcin) hb.1 hb.2.1
    hb.2.2.2.2 f no g G hG c hf

/-- The gradients with respect to the points are numbers. -/
theorem C154_points_false : ¬ ∀ (L : KPLayer 2), L.offs = none → 0 < L.cin → 0 < L.nk → L.nkp = L.nk →
    ∀ (cin cout : Cloud (Fin 2 → ℝ)) (radius eps : ℝ), LayerOk cin cout radius eps →
    ∀ (f : Fin cin.n → ℕ → ℝ) (no : ℕ) (g : ℕ → ℕ → ℝ) (G : (ℕ → Fin 2 → Flt ℝ) × (ℕ → Fin 2 → Flt ℝ)),
      L.callPointGrads (k := 0) .gpu eps cin cout radius none f no g = .ok G →
      ∀ (p : Fin cin.n) (d : Fin 2), ∃ x, G.1 p.val d = .fin x := by
  intro H
  obtain ⟨nh, hnh⟩ := layerNbh_gpu (k := 0) (1 / 100) oneCloud oneCloud 1 oneCloud_ok Nat.one_pos (fun _ => Nat.one_pos)
  have hG : ∃ G, kinkLayer.callPointGrads (k := 0) .gpu (1 / 100) oneCloud oneCloud 1 none (fun _ _ => 1) 1 (fun _ _ => 1) =
      .ok G := by
    unfold KPLayer.callPointGrads
    rw [hnh]
    exact ⟨_, rfl⟩
  obtain ⟨G, hG⟩ := hG
  obtain ⟨x, hx⟩ := H kinkLayer rfl Nat.one_pos Nat.one_pos rfl oneCloud oneCloud 1 (1 / 100) oneCloud_ok _ _ _ G hG 0 0
  have := (C154_points_nan (k := 0) .gpu (1 / 100) kinkLayer Nat.one_pos (fun _ => rfl) oneCloud 1 oneCloud_ok none _ _ _ G hG
    0 0).1
  rw [hx] at this
  cases this

/-- The conditions of the theorems about points can be met: two kernel points, two neighbours. -/
example : ∀ p c, (p, c) ∈ [((0 : Fin 2), (0 : Fin 1)), (1, 0)] → ∀ b < 2,
    norm2 (fun d : Fin 2 => ((if d = 0 then (if p = 0 then 1 / 4 else 1 / 2) else 0 : ℝ) - (fun (_ : Fin 1) (_ : Fin 2) => (0 : ℝ)) c d) / 1 -
      (fun (b : ℕ) (d : Fin 2) => if d = 0 then (b : ℝ) else 0) b d) ≠ 0 ∧ (Interp.linear = .linear →
    norm2 (fun d : Fin 2 => ((if d = 0 then (if p = 0 then 1 / 4 else 1 / 2) else 0 : ℝ) - (fun (_ : Fin 1) (_ : Fin 2) => (0 : ℝ)) c d) / 1 -
      (fun (b : ℕ) (d : Fin 2) => if d = 0 then (b : ℝ) else 0) b d) ≠ 2) := by
  have key : ∀ x : ℝ, norm2 (fun d : Fin 2 => if d = 0 then x else 0) = |x| := by
    intro x
    unfold norm2
    rw [Fin.sum_univ_two]
    simp [Real.sqrt_sq_eq_abs, Real.sqrt_mul_self_eq_abs]
  intro p c _ b hb
  have e : (fun d : Fin 2 => ((if d = 0 then (if p = 0 then 1 / 4 else 1 / 2) else 0 : ℝ) -
      (fun (_ : Fin 1) (_ : Fin 2) => (0 : ℝ)) c d) / 1 - (fun (b : ℕ) (d : Fin 2) => if d = 0 then (b : ℝ) else 0) b d) =
      fun d : Fin 2 => if d = 0 then ((if p = 0 then 1 / 4 else 1 / 2) - (b : ℝ)) else 0 := by
    funext d
    by_cases hd : d = 0 <;> simp [hd]
  rw [e, key]
  rcases (by omega : b = 0 ∨ b = 1) with rfl | rfl <;> by_cases hp : p = 0 <;> simp only [hp] <;> norm_num

end PC
