import Verif.CudaPdf
import Verif.Props.Pdf
import Verif.Props.CudaSampling
import Mathlib.Analysis.Calculus.FDeriv.Mul
import Mathlib.Analysis.Calculus.FDeriv.Add
import Mathlib.Analysis.SpecialFunctions.ExpDeriv
import Mathlib.Analysis.Real.Pi.Bounds

/-!
# Properties of the CUDA density estimation (C63, C64, C84, C85)
-/

set_option linter.unusedVariables false

namespace PC

/-! ### C64: compensated summation -/

theorem kahan_foldl {K : Type*} [Ring K] (l : List K) (a : K) :
    l.foldl kahanStep (a, 0) = (a + l.sum, 0) := by
  induction l generalizing a with
  | nil => simp
  | cons x l ih =>
    have e : kahanStep (a, 0) x = (a + x, 0) := by
      simp [kahanStep, kahanStepFl]
    rw [List.foldl_cons, e, ih, List.sum_cons, add_assoc]

/-- **C64.** In exact arithmetic the compensated accumulation returns the plain
sum of its summands and the compensation is zero, for every list and every
ring. -/
theorem C64_kahan_exact {K : Type*} [Ring K] (l : List K) : kahan l = (l.sum, 0) := by
  unfold kahan
  rw [kahan_foldl, zero_add]

/-- Consequently the order of the summands does not matter. -/
theorem C64_order {K : Type*} [CommRing K] (l l' : List K) (h : l.Perm l') : kahan l = kahan l' := by
  rw [C64_kahan_exact, C64_kahan_exact, h.sum_eq]

example : kahan [(1 : ℚ), 1 / 3, -7 / 2] = (-13 / 6, 0) := by decide +kernel

/-! ### C64 with rounding -/

section
variable {K : Type*} [Field K] [LinearOrder K] [IsStrictOrderedRing K]

/-- One step: `s - c` is within `E` of the exact partial sum `σ`. -/
theorem kahan_step_bound (fl : K → K) (u : K) (hu0 : 0 ≤ u) (hu : u ≤ 1 / 32)
    (hfl : ∀ x, |fl x - x| ≤ u * |x|) (s c x σ A E : K) (hs : |s - c - σ| ≤ E) (hc : |c| ≤ 4 * u * A)
    (hE : E ≤ A) (hA : |σ| ≤ A) :
    |(kahanStepFl fl (s, c) x).1 - (kahanStepFl fl (s, c) x).2 - (σ + x)| ≤
      E + 3 * u * |x| + 14 * u ^ 2 * (A + |x|) ∧
    |(kahanStepFl fl (s, c) x).2| ≤ 4 * u * (A + |x|) := by
  simp only [kahanStepFl]
  set y := fl (x - c)
  set t := fl (s + y)
  set a := fl (t - s)
  set c' := fl (a - y)
  have hA0 : 0 ≤ A := le_trans (abs_nonneg _) hA
  have hX0 : 0 ≤ |x| := abs_nonneg _
  set X := |x|
  have h1 : |y - (x - c)| ≤ u * |x - c| := hfl _
  have h2 : |t - (s + y)| ≤ u * |s + y| := hfl _
  have h3 : |a - (t - s)| ≤ u * |t - s| := hfl _
  have h4 : |c' - (a - y)| ≤ u * |a - y| := hfl _
  -- bounds on the intermediate values
  have hP : |x - c| ≤ X + 4 * u * A := (abs_sub _ _).trans (by linarith)
  have huA : u * A ≤ 1 / 32 * A := mul_le_mul_of_nonneg_right hu hA0
  have huA0 : 0 ≤ u * A := mul_nonneg hu0 hA0
  have huX0 : 0 ≤ u * X := mul_nonneg hu0 hX0
  have hP' : |x - c| ≤ A + X := by linarith
  have e1 : u * |x - c| ≤ u * (X + 4 * u * A) := mul_le_mul_of_nonneg_left hP hu0
  have e1' : u * |x - c| ≤ 1 / 32 * (A + X) :=
    mul_le_mul hu hP' (abs_nonneg _) (by norm_num)
  have hy : |y| ≤ |x - c| + u * |x - c| := by
    have : y = (x - c) + (y - (x - c)) := by ring
    calc |y| = |(x - c) + (y - (x - c))| := by rw [← this]
      _ ≤ |x - c| + |y - (x - c)| := abs_add_le _ _
      _ ≤ _ := by linarith
  have hsy : |s + y| ≤ 65 / 32 * (A + X) := by
    have : s + y = (s - c - σ) + (σ + x + (y - (x - c))) := by ring
    rw [this]
    have i1 := abs_add_le (s - c - σ) (σ + x + (y - (x - c)))
    have i2 := abs_add_le (σ + x) (y - (x - c))
    have i3 := abs_add_le σ x
    have : |x| = X := rfl
    linarith
  have ht : |t - (s + y)| ≤ u * (65 / 32 * (A + X)) := h2.trans (mul_le_mul_of_nonneg_left hsy hu0)
  have hts : |t - s| ≤ |y| + u * (65 / 32 * (A + X)) := by
    have : t - s = y + (t - (s + y)) := by ring
    rw [this]
    exact (abs_add_le _ _).trans (by linarith)
  have hay : |a - y| ≤ u * (65 / 32 * (A + X)) + u * |t - s| := by
    have : a - y = (t - (s + y)) + (a - (t - s)) := by ring
    rw [this]
    exact (abs_add_le _ _).trans (by linarith)
  have e3 : u * |t - s| ≤ u * (|y| + u * (65 / 32 * (A + X))) := mul_le_mul_of_nonneg_left hts hu0
  have e2 : u * |y| ≤ u * (|x - c| + u * |x - c|) := mul_le_mul_of_nonneg_left hy hu0
  have hAX : 0 ≤ A + X := by linarith
  have u2 : u * u ≤ 1 / 32 * u := mul_le_mul_of_nonneg_right hu hu0
  have uu0 : 0 ≤ u * u := mul_nonneg hu0 hu0
  -- `u |y|` and `u |t - s|` to first and second order
  have hB : 0 ≤ u * (A + X) := mul_nonneg hu0 hAX
  have k1 : u * (u * |x - c|) ≤ 1 / 32 * (u * |x - c|) :=
    mul_le_mul_of_nonneg_right hu (mul_nonneg hu0 (abs_nonneg _))
  have k2 : u * (u * (65 / 32 * (A + X))) = 65 / 32 * (u ^ 2 * (A + X)) := by ring
  have k3 : u ^ 2 * (A + X) ≤ 1 / 32 * (u * (A + X)) := by
    have := mul_le_mul_of_nonneg_right u2 hAX
    calc u ^ 2 * (A + X) = u * u * (A + X) := by ring
      _ ≤ 1 / 32 * u * (A + X) := this
      _ = _ := by ring
  have k3' : 0 ≤ u ^ 2 * (A + X) := mul_nonneg (sq_nonneg _) hAX
  have k4 : u * |x - c| ≤ u * (A + X) := mul_le_mul_of_nonneg_left hP' hu0
  have k5 : u * (X + 4 * u * A) ≤ u * X + 4 * (u ^ 2 * (A + X)) := by
    have : 0 ≤ u ^ 2 * X := mul_nonneg (sq_nonneg _) hX0
    nlinarith
  have huts : u * |t - s| ≤ 33 / 32 * (u * |x - c|) + 65 / 32 * (u ^ 2 * (A + X)) := by
    have : u * (|y| + u * (65 / 32 * (A + X))) = u * |y| + 65 / 32 * (u ^ 2 * (A + X)) := by ring
    have : u * (|x - c| + u * |x - c|) = u * |x - c| + u * (u * |x - c|) := by ring
    linarith
  have hay' : |a - y| ≤ 33 / 10 * (u * (A + X)) := by
    have : u * (65 / 32 * (A + X)) = 65 / 32 * (u * (A + X)) := by ring
    linarith
  have huay : u * |a - y| ≤ 33 / 10 * (u ^ 2 * (A + X)) := by
    have := mul_le_mul_of_nonneg_left hay' hu0
    calc u * |a - y| ≤ u * (33 / 10 * (u * (A + X))) := this
      _ = _ := by ring
  constructor
  · have e : t - c' - (σ + x) = (s - c - σ) + ((y - (x - c)) - (a - (t - s)) - (c' - (a - y))) := by ring
    rw [e]
    have i1 := abs_add_le (s - c - σ) ((y - (x - c)) - (a - (t - s)) - (c' - (a - y)))
    have i2 := abs_sub ((y - (x - c)) - (a - (t - s))) (c' - (a - y))
    have i3 := abs_sub (y - (x - c)) (a - (t - s))
    have : 3 * u * X = 3 * (u * X) := by ring
    have : 14 * u ^ 2 * (A + X) = 14 * (u ^ 2 * (A + X)) := by ring
    linarith
  · have e : c' = (a - y) + (c' - (a - y)) := by ring
    rw [e]
    have i1 := abs_add_le (a - y) (c' - (a - y))
    have : 4 * u * (A + X) = 4 * (u * (A + X)) := by ring
    linarith

theorem kahan_bound_aux (fl : K → K) (u : K) (hu0 : 0 ≤ u) (hu : u ≤ 1 / 32)
    (hfl : ∀ x, |fl x - x| ≤ u * |x|) (l : List K) :
    ∀ (k : ℕ) (s c σ A : K), ((k + l.length : ℕ) : K) * u ≤ 1 → |σ| ≤ A →
      |s - c - σ| ≤ (3 * u + 14 * k * u ^ 2) * A → |c| ≤ 4 * u * A →
      |(l.foldl (kahanStepFl fl) (s, c)).1 - (σ + l.sum)| ≤
        (7 * u + 14 * (k + l.length : ℕ) * u ^ 2) * (A + (l.map (fun x => |x|)).sum) := by
  induction l with
  | nil =>
    intro k s c σ A hk hA hs hc
    simp only [List.foldl_nil, List.sum_nil, add_zero, List.length_nil, List.map_nil]
    have : s - σ = (s - c - σ) + c := by ring
    rw [this]
    refine (abs_add_le _ _).trans ?_
    calc |s - c - σ| + |c| ≤ (3 * u + 14 * k * u ^ 2) * A + 4 * u * A := add_le_add hs hc
      _ = _ := by ring
  | cons x l ih =>
    intro k s c σ A hk hA hs hc
    have hA0 : 0 ≤ A := le_trans (abs_nonneg _) hA
    have hX0 : 0 ≤ |x| := abs_nonneg _
    have hku : (k : K) * u ≤ 1 := by
      refine le_trans (mul_le_mul_of_nonneg_right ?_ hu0) hk
      exact_mod_cast Nat.le_add_right _ _
    have hE : (3 * u + 14 * k * u ^ 2) * A ≤ A := by
      have h1 : 14 * (k : K) * u ^ 2 = 14 * (k * u) * u := by ring
      have h2 : (k : K) * u * u ≤ 1 * u := mul_le_mul_of_nonneg_right hku hu0
      have : 3 * u + 14 * k * u ^ 2 ≤ 1 := by rw [h1]; linarith
      calc (3 * u + 14 * k * u ^ 2) * A ≤ 1 * A := mul_le_mul_of_nonneg_right this hA0
        _ = A := one_mul A
    obtain ⟨h1, h2⟩ := kahan_step_bound fl u hu0 hu hfl s c x σ A _ hs hc hE hA
    have hlen : k + (x :: l).length = (k + 1) + l.length := by simp only [List.length_cons]; omega
    have := ih (k + 1) (kahanStepFl fl (s, c) x).1 (kahanStepFl fl (s, c) x).2 (σ + x) (A + |x|)
      (by rw [← hlen]; exact hk) ((abs_add_le _ _).trans (by linarith)) (by
        refine h1.trans ?_
        push_cast
        have : 0 ≤ (k : K) * u ^ 2 * |x| := mul_nonneg (mul_nonneg (Nat.cast_nonneg _) (sq_nonneg _)) hX0
        nlinarith) h2
    rw [List.foldl_cons, hlen, List.sum_cons, List.map_cons, List.sum_cons, ← add_assoc, ← add_assoc]
    exact this

/-- **C64, floating point.** If every operation is rounded with relative error at
most `u ≤ 1/32` (for single precision `u = 2⁻²⁴`) and the list has at most `1/u`
elements, then the compensated accumulation differs from the exact sum by at most
`(7 u + 14 n u²) ∑ |x|`: the error does not grow with the number of summands, up
to second order terms. -/
theorem C64_rounding (fl : K → K) (u : K) (hu0 : 0 ≤ u) (hu : u ≤ 1 / 32)
    (hfl : ∀ x, |fl x - x| ≤ u * |x|) (l : List K) (hl : (l.length : K) * u ≤ 1) :
    |(kahanFl fl l).1 - l.sum| ≤ (7 * u + 14 * l.length * u ^ 2) * (l.map (fun x => |x|)).sum := by
  have := kahan_bound_aux fl u hu0 hu hfl l 0 0 0 0 0 (by simpa using hl) (by simp) (by simp) (by simp)
  simpa [kahanFl] using this

end

/-- Rounding to a multiple of `1/64` of a power of two is such a rounding; here
simply a relative perturbation. -/
example : ∀ x : ℚ, |(fun x : ℚ => x * (1 + 1 / 64)) x - x| ≤ 1 / 64 * |x| := by
  intro x
  have : x * (1 + 1 / 64) - x = 1 / 64 * x := by ring
  show |x * (1 + 1 / 64) - x| ≤ _
  rw [this, abs_mul]
  norm_num

/-! ### atomic additions -/

theorem runAtomics_eq {K A : Type*} [Ring K] [DecidableEq A] (m : A → K) (tr : List (A × K)) (a : A) :
    runAtomics m tr a = m a + (tr.map (fun w => if w.1 = a then w.2 else 0)).sum := by
  unfold runAtomics
  induction tr generalizing m with
  | nil => simp
  | cons w tr ih =>
    rw [List.foldl_cons, ih, List.map_cons, List.sum_cons, ← add_assoc]
    congr 1
    by_cases h : w.1 = a
    · subst h; rw [Function.update_self, if_pos rfl]
    · rw [Function.update_of_ne (fun e => h e.symm), if_neg h, add_zero]

/-- Pairing of the accumulated array with a vector. -/
theorem runAtomics_pair {K A B : Type*} [CommRing K] [DecidableEq A] [Fintype B] (e : B → A)
    (he : Function.Injective e) (tr : List (A × K)) (v : A → K)
    (hr : ∀ w ∈ tr, ∃ b, e b = w.1) :
    ∑ b, runAtomics (fun _ => 0) tr (e b) * v (e b) = (tr.map (fun w => w.2 * v w.1)).sum := by
  classical
  simp only [runAtomics_eq, zero_add]
  induction tr with
  | nil => simp
  | cons w tr ih =>
    simp only [List.map_cons, List.sum_cons, add_mul, Finset.sum_add_distrib]
    rw [ih (fun w' h' => hr w' (List.mem_cons_of_mem _ h'))]
    congr 1
    obtain ⟨b, hb⟩ := hr w List.mem_cons_self
    rw [Finset.sum_eq_single b]
    · rw [if_pos hb.symm, hb]
    · intro b' _ hne
      rw [if_neg, zero_mul]
      intro h
      exact hne (he (h.symm.trans hb.symm))
    · intro h; exact absurd (Finset.mem_univ _) h

/-! ### the forward kernel -/

theorem foldl_mul_eq {D : ℕ} (f : Fin D → ℝ) (a : ℝ) :
    (List.finRange D).foldl (fun acc d => acc * f d) a = a * ∏ d, f d := by
  have h : ∀ (l : List (Fin D)) (a : ℝ), l.foldl (fun acc d => acc * f d) a = a * (l.map f).prod := by
    intro l
    induction l with
    | nil => intro a; simp
    | cons x l ih => intro a; rw [List.foldl_cons, ih, List.map_cons, List.prod_cons, mul_assoc]
  rw [h, List.prod_ofFn_eq_map_finRange_aux f]
where
  List.prod_ofFn_eq_map_finRange_aux {D : ℕ} (f : Fin D → ℝ) :
    ((List.finRange D).map f).prod = ∏ d, f d := by
    rw [← List.ofFn_eq_map, List.prod_ofFn]

theorem pdfThreads_pos {n B W : ℕ} (hn : 0 < n) (hB : 0 < B) (hW : 0 < W) : 0 < pdfThreads n B W := by
  unfold pdfThreads launchBlocks
  have h1 : 0 < execBlocks n B := by
    unfold execBlocks
    by_cases h : n % B = 0
    · exact Nat.add_pos_left (Nat.div_pos (Nat.le_of_dvd hn (Nat.dvd_of_mod_eq_zero h)) hB) _
    · rw [if_pos h]; exact Nat.succ_pos _
  refine Nat.mul_pos ?_ hB
  split_ifs <;> omega

/-- The value one neighbour position contributes to the density of point `i`. -/
noncomputable def pdfTerm {D : ℕ} (I : PdfIn D) (w : Fin D → ℝ) (i j : ℕ) : ℝ :=
  ∏ d, (w d * Real.exp (-((I.pts (I.nb j).1 d - I.pts i d) * w d * I.invRad d) ^ 2 / 2) * pdfConst)

theorem pdfLocal_eq {D : ℕ} (I : PdfIn D) (w : Fin D → ℝ) (a : ℝ) (i j : ℕ) :
    pdfLocal I w a i j = a * pdfTerm I w i j := by
  unfold pdfLocal pdfTerm
  rw [foldl_mul_eq]
  congr 1
  refine Finset.prod_congr rfl (fun d _ => ?_)
  have : pdfDiff I w i j d * pdfDiff I w i j d * (-0.5) =
      -((I.pts (I.nb j).1 d - I.pts i d) * w d * I.invRad d) ^ 2 / 2 := by
    unfold pdfDiff; ring
  rw [this]

theorem pdfFwd_eq {D : ℕ} (I : PdfIn D) (mode B W : ℕ) (hB : 0 < B) (hW : 0 < W) (out : ℕ → ℝ)
    (h : PdfFwd I mode B W out) (i : ℕ) (hi : i < I.n) :
    out i = ((rangeIdx I.ends i).map (pdfTerm I (pdfInvBw mode I.invBw I.n) i)).sum := by
  obtain ⟨old, tr, hint, rfl⟩ := h
  have hp := strideThreads_perm (pdfThreads_pos (by omega) hB hW) _ hint
  have hm : ∀ w, w ∈ tr ↔ ∃ i < I.n, w = (i, ((rangeIdx I.ends i).map
      (pdfTerm I (pdfInvBw mode I.invBw I.n) i)).sum) := by
    intro w
    rw [hp.mem_iff, List.mem_flatMap]
    simp only [pdfBody, List.mem_range, List.mem_singleton, C64_kahan_exact]
    have : ∀ i, pdfLocal I (pdfInvBw mode I.invBw I.n) 1 i = pdfTerm I (pdfInvBw mode I.invBw I.n) i := by
      intro i; funext j; rw [pdfLocal_eq, one_mul]
    simp only [this]
  apply runWrites_mem
  · exact (hm _).mpr ⟨i, hi, rfl⟩
  · intro w hw e
    obtain ⟨i', _, rfl⟩ := (hm w).mp hw
    simp only at e
    subst e
    rfl

theorem exists_pdfFwd {D : ℕ} (I : PdfIn D) (mode B W : ℕ) : ∃ out, PdfFwd I mode B W out :=
  ⟨_, fun _ => 0, _, Interleave.exists_seq _, rfl⟩

theorem exists_pdfGrad {D : ℕ} (I : PdfIn D) (mode B W : ℕ) (g : ℕ → ℝ) :
    ∃ out, PdfGrad I mode B W g out :=
  ⟨_, _, Interleave.exists_seq _, rfl⟩

/-! ### C63: the gradient -/

/-- The linear form of a difference of two coordinates. -/
noncomputable def diffForm {n D : ℕ} (a b : Fin n) (d : Fin D) (s : ℝ) :
    (Fin n → Fin D → ℝ) →L[ℝ] ℝ :=
  s • ((ContinuousLinearMap.proj (R := ℝ) (φ := fun _ : Fin D => ℝ) d).comp
      (ContinuousLinearMap.proj (R := ℝ) (φ := fun _ : Fin n => Fin D → ℝ) a) -
    (ContinuousLinearMap.proj (R := ℝ) (φ := fun _ : Fin D => ℝ) d).comp
      (ContinuousLinearMap.proj (R := ℝ) (φ := fun _ : Fin n => Fin D → ℝ) b))

theorem diffForm_apply {n D : ℕ} (a b : Fin n) (d : Fin D) (s : ℝ) (v : Fin n → Fin D → ℝ) :
    diffForm a b d s v = s * (v a d - v b d) := by
  simp [diffForm]

theorem hasFDerivAt_gaussProd {n D : ℕ} (a b : Fin n) (w r : Fin D → ℝ) (c : ℝ) (p : Fin n → Fin D → ℝ) :
    HasFDerivAt (fun q : Fin n → Fin D → ℝ =>
        ∏ d, (w d * Real.exp (-((q a d - q b d) * w d * r d) ^ 2 / 2) * c))
      (- ∑ d, (((p a d - p b d) * w d * r d) *
        ∏ d, (w d * Real.exp (-((p a d - p b d) * w d * r d) ^ 2 / 2) * c)) • diffForm a b d (w d * r d)) p := by
  have e : ∀ q : Fin n → Fin D → ℝ, ∏ d, (w d * Real.exp (-((q a d - q b d) * w d * r d) ^ 2 / 2) * c) =
      (∏ d, (w d * c)) * Real.exp (∑ d, -((diffForm a b d (w d * r d) q) *
        (diffForm a b d (w d * r d) q)) / 2) := by
    intro q
    rw [Real.exp_sum, ← Finset.prod_mul_distrib]
    refine Finset.prod_congr rfl (fun d _ => ?_)
    rw [diffForm_apply]
    have : -((q a d - q b d) * w d * r d) ^ 2 / 2 =
        -(w d * r d * (q a d - q b d) * (w d * r d * (q a d - q b d))) / 2 := by ring
    rw [this]; ring
  have hf : (fun q : Fin n → Fin D → ℝ =>
      ∏ d, (w d * Real.exp (-((q a d - q b d) * w d * r d) ^ 2 / 2) * c)) =
      fun q => (∏ d, (w d * c)) * Real.exp (∑ d, -((diffForm a b d (w d * r d) q) *
        (diffForm a b d (w d * r d) q)) / 2) := funext e
  rw [hf, e p]
  have h1 : ∀ d ∈ Finset.univ, HasFDerivAt (fun q : Fin n → Fin D → ℝ => -((diffForm a b d (w d * r d) q) *
        (diffForm a b d (w d * r d) q)) / 2)
      (-(diffForm a b d (w d * r d) p) • diffForm a b d (w d * r d)) p := by
    intro d _
    have hl : HasFDerivAt (fun q => diffForm a b d (w d * r d) q) (diffForm a b d (w d * r d)) p :=
      (diffForm a b d (w d * r d)).hasFDerivAt
    have hm := ((hl.mul hl).neg).mul_const (2⁻¹ : ℝ)
    refine (hm.congr_fderiv ?_)
    ext v
    simp
    ring
  have h2 := ((HasFDerivAt.fun_sum h1).exp).const_mul (∏ d, (w d * c))
  refine h2.congr_fderiv ?_
  ext v
  simp only [smul_apply, neg_apply, sum_apply,
    smul_eq_mul, diffForm_apply, neg_mul, Finset.sum_neg_distrib, mul_neg, Finset.mul_sum]
  congr 1
  refine Finset.sum_congr rfl (fun d _ => ?_)
  ring

/-- **C63.** The gradient operation is the derivative of the density operation:
for all points, neighbour lists with valid indices, inverse bandwidths and
radii, both modes, all upstream gradients `g`, all launch sizes and schedules
of both operations, the weighted sum of densities `q ↦ ∑ᵢ gᵢ pdf(q)ᵢ` is
differentiable at the points `p` and its derivative in the direction `v` is the
scalar product of `v` with the returned array. -/
theorem C63_gradient {D : ℕ} (I : PdfIn D) (mode B W B' W' : ℕ) (hB : 0 < B) (hW : 0 < W)
    (hB' : 0 < B') (hW' : 0 < W')
    (hnb : ∀ i < I.n, ∀ j ∈ rangeIdx I.ends i, (I.nb j).1 < I.n) (g : ℕ → ℝ)
    (p : Fin I.n → Fin D → ℝ) (fwd : (Fin I.n → Fin D → ℝ) → ℕ → ℝ)
    (hf : ∀ q, PdfFwd { I with pts := gatherPt q } mode B W (fwd q)) (out : ℕ × Fin D → ℝ)
    (hg : PdfGrad { I with pts := gatherPt p } mode B' W' g out) :
    ∃ L : (Fin I.n → Fin D → ℝ) →L[ℝ] ℝ,
      HasFDerivAt (fun q => ∑ i : Fin I.n, g i * fwd q i) L p ∧
      ∀ v, L v = ∑ i : Fin I.n, ∑ d, out (i.val, d) * v i d := by
  set w := pdfInvBw mode I.invBw I.n with hw
  -- the neighbour at a position, as an index
  have hterm : ∀ (i : Fin I.n) (j : ℕ), j ∈ rangeIdx I.ends i →
      ∃ a : Fin I.n, a.val = (I.nb j).1 := fun i j hj => ⟨⟨_, hnb i i.isLt j hj⟩, rfl⟩
  let T : Fin I.n → ℕ → (Fin I.n → Fin D → ℝ) → ℝ := fun i j q =>
    pdfTerm { I with pts := gatherPt q } w i j
  have hfwd : ∀ q (i : Fin I.n), fwd q i = ((rangeIdx I.ends i).map (fun j => T i j q)).sum := by
    intro q i
    exact pdfFwd_eq _ mode B W hB hW _ (hf q) i i.isLt
  have hgat : ∀ (q : Fin I.n → Fin D → ℝ) (a : Fin I.n), gatherPt q a.val = q a := by
    intro q a
    unfold gatherPt
    rw [dif_pos a.isLt]
  -- derivative of one term
  let dT : Fin I.n → ℕ → (Fin I.n → Fin D → ℝ) → ℝ := fun i j v =>
    - ∑ d, pdfDiff { I with pts := gatherPt p } w i j d * w d * I.invRad d * T i j p *
      (gatherPt v (I.nb j).1 d - v i d)
  have hT : ∀ (i : Fin I.n) (j : ℕ), j ∈ rangeIdx I.ends i →
      ∃ L : (Fin I.n → Fin D → ℝ) →L[ℝ] ℝ, HasFDerivAt (T i j) L p ∧ ∀ v, L v = dT i j v := by
    intro i j hj
    obtain ⟨a, ha⟩ := hterm i j hj
    refine ⟨_, (hasFDerivAt_gaussProd a i w I.invRad pdfConst p).congr_of_eventuallyEq
        (Filter.Eventually.of_forall (fun q => by
          simp only [T, pdfTerm, ← ha, hgat])), ?_⟩
    · intro v
      simp only [neg_apply, sum_apply,
        smul_apply, smul_eq_mul, diffForm_apply, dT, T, pdfTerm, pdfDiff, ← ha, hgat]
      congr 1
      refine Finset.sum_congr rfl (fun d _ => ?_)
      ring
  choose! L hL1 hL2 using hT
  have hsum : ∀ i : Fin I.n, HasFDerivAt (fun q => fwd q i) (((rangeIdx I.ends i).map (L i)).sum) p := by
    intro i
    have : (fun q => fwd q i) = fun q => ((rangeIdx I.ends i).map (fun j => T i j q)).sum :=
      funext (fun q => hfwd q i)
    rw [this]
    have key : ∀ l : List ℕ, (∀ j ∈ l, j ∈ rangeIdx I.ends i) →
        HasFDerivAt (fun q => (l.map (fun j => T i j q)).sum) ((l.map (L i)).sum) p := by
      intro l
      induction l with
      | nil => intro _; exact hasFDerivAt_const 0 p
      | cons j l ih =>
        intro hl
        simp only [List.map_cons, List.sum_cons]
        exact (hL1 i j (hl j List.mem_cons_self)).add (ih (fun x hx => hl x (List.mem_cons_of_mem _ hx)))
    exact key _ (fun _ h => h)
  refine ⟨∑ i : Fin I.n, g i • ((rangeIdx I.ends i).map (L i)).sum, ?_, ?_⟩
  · exact HasFDerivAt.fun_sum (fun i _ => (hsum i).const_mul (g i))
  · intro v
    -- the left hand side
    have lhs : (∑ i : Fin I.n, g i • ((rangeIdx I.ends i).map (L i)).sum) v =
        ∑ i : Fin I.n, g i * ((rangeIdx I.ends i).map (fun j => dT i j v)).sum := by
      rw [sum_apply]
      refine Finset.sum_congr rfl (fun i _ => ?_)
      rw [smul_apply, smul_eq_mul]
      congr 1
      have key : ∀ l : List ℕ, (∀ j ∈ l, j ∈ rangeIdx I.ends i) →
          ((l.map (L i)).sum) v = (l.map (fun j => dT i j v)).sum := by
        intro l
        induction l with
        | nil => intro _; rfl
        | cons j l ih =>
          intro hl
          simp only [List.map_cons, List.sum_cons, add_apply]
          rw [hL2 i j (hl j List.mem_cons_self), ih (fun x hx => hl x (List.mem_cons_of_mem _ hx))]
      exact key _ (fun _ h => h)
    rw [lhs]
    rcases Nat.eq_zero_or_pos I.n with h0 | hn
    · have : IsEmpty (Fin I.n) := by rw [h0]; infer_instance
      simp
    -- the right hand side
    obtain ⟨tr, hint, rfl⟩ := hg
    have hp := strideThreads_perm (pdfThreads_pos hn hB' hW') _ hint
    let v' : ℕ × Fin D → ℝ := fun a => gatherPt v a.1 a.2
    have hpair := runAtomics_pair (K := ℝ) (fun b : Fin I.n × Fin D => ((b.1.val, b.2) : ℕ × Fin D))
      (by
        rintro ⟨a, b⟩ ⟨a', b'⟩ h
        simp only [Prod.mk.injEq] at h
        rw [Prod.mk.injEq]
        exact ⟨Fin.ext h.1, h.2⟩) tr v' (by
        intro x hx
        rw [hp.mem_iff, List.mem_flatMap] at hx
        obtain ⟨i, hi, hx⟩ := hx
        rw [List.mem_range] at hi
        simp only [pdfGradBody, List.mem_append, List.mem_flatMap, List.mem_map] at hx
        rcases hx with ⟨j, hj, d, _, rfl⟩ | ⟨d, _, rfl⟩
        · exact ⟨(⟨_, hnb i hi j hj⟩, d), rfl⟩
        · exact ⟨(⟨i, hi⟩, d), rfl⟩)
    rw [Fintype.sum_prod_type] at hpair
    simp only [v', hgat] at hpair
    rw [hpair, (hp.map _).sum_eq, List.map_flatMap, List.flatMap_def, List.sum_flatten, List.map_map]
    have hfin : ∀ f : ℕ → ℝ, ((List.range I.n).map f).sum = ∑ i : Fin I.n, f i := by
      intro f
      rw [← Finset.sum_range]; rfl
    rw [hfin]
    refine Finset.sum_congr rfl (fun i _ => ?_)
    simp only [Function.comp, pdfGradBody, List.map_append, List.map_flatMap, List.map_map, List.sum_append,
      C64_kahan_exact, pdfLocal_eq, ← hw]
    rw [List.flatMap_def, List.sum_flatten, List.map_map]
    have hfd : ∀ f : Fin D → ℝ, ((List.finRange D).map f).sum = ∑ d, f d := by
      intro f
      rw [← List.ofFn_eq_map, List.sum_ofFn]
    simp only [Function.comp_def, hfd]
    generalize rangeIdx I.ends i = l
    induction l with
    | nil => simp
    | cons j l ih =>
      simp only [List.map_cons, List.sum_cons, add_mul, mul_add, Finset.sum_add_distrib] at ih ⊢
      rw [ih]
      have e1 : g i * dT i j v =
          ∑ d, -(pdfDiff { I with pts := gatherPt p } w i j d * w d * I.invRad d *
            (g i * pdfTerm { I with pts := gatherPt p } w i j)) * gatherPt v (I.nb j).1 d +
          ∑ d, pdfDiff { I with pts := gatherPt p } w i j d * w d * I.invRad d *
            (g i * pdfTerm { I with pts := gatherPt p } w i j) * gatherPt v i d := by
        rw [hgat, ← Finset.sum_add_distrib]
        simp only [dT, T, mul_neg, Finset.mul_sum]
        rw [← Finset.sum_neg_distrib]
        refine Finset.sum_congr rfl (fun d _ => ?_)
        ring
      linarith

/-- A cloud and neighbour lists to which C63 applies: two points, everybody is a
neighbour of everybody. -/
noncomputable abbrev exPdf : PdfIn 2 where
  n := 2
  pts := fun i _ => i
  nb := fun j => (j % 2, j / 2)
  ends := fun i => 2 * (i + 1)
  invBw := fun _ => 5
  invRad := fun _ => 1

example : (∀ i < exPdf.n, ∀ j ∈ rangeIdx exPdf.ends i, (exPdf.nb j).1 < exPdf.n) ∧
    rangeIdx exPdf.ends 1 = [2, 3] ∧
    (∀ q : Fin 2 → Fin 2 → ℝ, ∃ out, PdfFwd { exPdf with pts := gatherPt q } 0 64 3 out) ∧
    ∃ out, PdfGrad exPdf 0 64 3 (fun _ => 1) out :=
  ⟨fun i _ j _ => Nat.mod_lt _ (by decide), by decide, fun q => exists_pdfFwd _ _ _ _,
    exists_pdfGrad _ _ _ _ _⟩

/-! ### C84: agreement with the TensorFlow implementation -/

theorem take_drop_eq {α : Type*} (l : List α) (s e : ℕ) (he : e ≤ l.length) :
    (l.drop s).take (e - s) = ((List.range (e - s)).map (fun k => s + k)).filterMap (fun j => l[j]?) := by
  induction hm : e - s generalizing s with
  | zero => simp
  | succ m ih =>
    have hs : s < l.length := by omega
    have h0 : l[s + 0]? = some l[s] := List.getElem?_eq_getElem hs
    rw [List.drop_eq_getElem_cons hs, List.take_succ_cons, List.range_succ_eq_map, List.map_cons,
      List.filterMap_cons, h0, List.map_map]
    simp only
    congr 1
    have := ih (s + 1) (by omega)
    rw [this]
    congr 1
    refine List.map_congr_left (fun k _ => ?_)
    simp only [Function.comp]
    omega

theorem ranges_le {n m : ℕ} {ranges : List ℕ} {pairs : List (Fin n × Fin m)}
    (hd : RangesDelimit ranges pairs) (i : ℕ) : ranges.getD i 0 ≤ pairs.length := by
  obtain ⟨hlen, hmono, hlast, hiff⟩ := hd
  rcases Nat.lt_or_ge i ranges.length with hi | hi
  · rw [List.getD_eq_getElem?_getD, List.getElem?_eq_getElem hi, Option.getD_some, ← hlast,
      List.getLastD_eq_getLast?, List.getLast?_eq_getElem?,
      List.getElem?_eq_getElem (by omega : ranges.length - 1 < ranges.length), Option.getD_some]
    rcases Nat.lt_or_ge i (ranges.length - 1) with h | h
    · exact List.pairwise_iff_getElem.mp hmono i _ hi (by omega) h
    · have : i = ranges.length - 1 := by omega
      subst this; exact le_refl _
  · rw [List.getD_eq_getElem?_getD, List.getElem?_eq_none hi]
    exact Nat.zero_le _

/-- The pairs of a centre are those at the positions of its range. -/
theorem pairs_of_range {n m : ℕ} {ranges : List ℕ} {pairs : List (Fin n × Fin m)}
    (hd : RangesDelimit ranges pairs) (i : Fin m) :
    pairs.filter (fun p => p.2.val = i.val) =
      (rangeIdx (fun i => ranges.getD i 0) i.val).filterMap (fun j => pairs[j]?) := by
  have hle := ranges_le hd i.val
  obtain ⟨hlen, hmono, hlast, hiff⟩ := hd
  rw [filter_eq_block _ _ (rangeStart (fun i => ranges.getD i 0) i.val) (ranges.getD i.val 0), take_drop_eq _ _ _ hle]
  · rfl
  · intro j
    have h := hiff i j
    have e : rangeStart (fun i => ranges.getD i 0) i.val = if i.val = 0 then 0 else ranges.getD (i.val - 1) 0 := by
      unfold rangeStart
      rcases Nat.eq_zero_or_pos i.val with h0 | h0
      · rw [if_neg (by omega), if_pos h0]
      · rw [if_pos h0, if_neg (by omega)]
    rw [e, h]
    simp [Fin.ext_iff]

theorem rangeIdx_lt {n m : ℕ} {ranges : List ℕ} {pairs : List (Fin n × Fin m)}
    (hd : RangesDelimit ranges pairs) (i : ℕ) (j : ℕ)
    (hj : j ∈ rangeIdx (fun i => ranges.getD i 0) i) : j < pairs.length := by
  have hle := ranges_le hd i
  unfold rangeIdx at hj
  rw [List.mem_map] at hj
  obtain ⟨k, hk, rfl⟩ := hj
  rw [List.mem_range] at hk
  simp only at hk
  omega

theorem pdfTerm_args {D n m : ℕ} (pts : Fin n → Fin D → ℝ) (pairs : List (Fin n × Fin m))
    (ends : ℕ → ℕ) (bw radii : Fin D → ℝ) (i : ℕ) (j : ℕ) (hj : j < pairs.length) (hi : pairs[j].2.val = i) :
    pdfTerm (pdfArgs pts pairs ends bw radii) (fun d => (bw d)⁻¹) i j =
      pairKernel gauss bw radii (pts pairs[j].1) (gatherPt pts pairs[j].2.val) / (∏ d, bw d) *
        (pdfConst * Real.sqrt (2 * Real.pi)) ^ D := by
  have hs : Real.sqrt (2 * Real.pi) ≠ 0 := (Real.sqrt_pos.mpr (by positivity)).ne'
  have hc : ((pdfConst * Real.sqrt (2 * Real.pi)) ^ D : ℝ) = ∏ _d : Fin D, (pdfConst * Real.sqrt (2 * Real.pi)) := by
    rw [Finset.prod_const, Finset.card_univ, Fintype.card_fin]
  unfold pdfTerm pairKernel
  rw [div_eq_mul_inv, ← Finset.prod_inv_distrib, hc, ← Finset.prod_mul_distrib, ← Finset.prod_mul_distrib]
  refine Finset.prod_congr rfl (fun d _ => ?_)
  have e1 : (pdfArgs pts pairs ends bw radii).nb j = (pairs[j].1.val, pairs[j].2.val) := by
    simp [pdfArgs, List.getElem?_eq_getElem hj]
  rw [e1, hi]
  have e2 : (pdfArgs pts pairs ends bw radii).pts pairs[j].1.val d = pts pairs[j].1 d := by
    simp [pdfArgs, gatherPt]
  have e3 : (pdfArgs pts pairs ends bw radii).pts i d = gatherPt pts i d := rfl
  have e4 : (pdfArgs pts pairs ends bw radii).invRad d = (radii d)⁻¹ := rfl
  simp only
  rw [e2, e3, e4]
  unfold gauss
  have : (pts pairs[j].1 d - gatherPt pts i d) * (bw d)⁻¹ * (radii d)⁻¹ =
      pts pairs[j].1 d / (bw d * radii d) - gatherPt pts i d / (bw d * radii d) := by
    rw [div_eq_mul_inv, div_eq_mul_inv, mul_inv]; ring
  rw [this]
  field_simp

/-- The relation between both implementations for an inverse bandwidth used by
the kernel. -/
theorem pdf_cuda_tf {D n m : ℕ} (pts : Fin n → Fin D → ℝ) (ranges : List ℕ)
    (pairs : List (Fin n × Fin m)) (hd : RangesDelimit ranges pairs) (bw radii : Fin D → ℝ) (i : Fin m)
    (mode : KDEMode) (hi : i.val < n) :
    ((rangeIdx (fun i => ranges.getD i 0) i.val).map
      (pdfTerm (pdfArgs pts pairs (fun i => ranges.getD i 0) bw radii) (fun d => (bw d)⁻¹) i.val)).sum =
    pdfOfPairs gauss pts bw radii mode pairs ⟨i.val, hi⟩ * (pdfConst * Real.sqrt (2 * Real.pi)) ^ D := by
  unfold pdfOfPairs
  have hf := pairs_of_range hd i
  simp only
  rw [hf]
  have hlt : ∀ j ∈ rangeIdx (fun i => ranges.getD i 0) i.val, j < pairs.length := fun j => rangeIdx_lt hd i.val j
  have hc : ∀ j ∈ rangeIdx (fun i => ranges.getD i 0) i.val, ∀ h : j < pairs.length, pairs[j].2.val = i.val := by
    intro j hj h
    have : pairs[j] ∈ pairs.filter (fun p => p.2.val = i.val) := by
      rw [hf, List.mem_filterMap]
      exact ⟨j, hj, List.getElem?_eq_getElem h⟩
    simpa using (List.mem_filter.mp this).2
  generalize rangeIdx (fun i => ranges.getD i 0) i.val = l at hlt hc
  induction l with
  | nil => simp
  | cons j l ih =>
    have h1 := hlt j List.mem_cons_self
    have hx : pairs[j]? = some pairs[j] := List.getElem?_eq_getElem h1
    rw [List.map_cons, List.sum_cons, ih (fun x hx => hlt x (List.mem_cons_of_mem _ hx))
      (fun x hx => hc x (List.mem_cons_of_mem _ hx)),
      pdfTerm_args _ _ _ _ _ _ _ h1 (hc j List.mem_cons_self h1), List.filterMap_cons, hx]
    simp only [List.map_cons, List.sum_cons]
    ring

/-- The literal in the kernel is `1/√(2π)` up to a relative error of `2·10⁻⁹`. -/
theorem pdfConst_close : |pdfConst * Real.sqrt (2 * Real.pi) - 1| ≤ 2 / 10 ^ 9 := by
  have h1 := Real.pi_gt_d20
  have h2 := Real.pi_lt_d20
  have lo : (2.5066282746 : ℝ) ≤ Real.sqrt (2 * Real.pi) := by
    apply Real.le_sqrt_of_sq_le
    norm_num at h1 ⊢
    linarith
  have hi : Real.sqrt (2 * Real.pi) ≤ 2.5066282747 := by
    apply Real.sqrt_le_iff.mpr
    constructor
    · norm_num
    · norm_num at h2 ⊢
      linarith
  unfold pdfConst
  rw [abs_le]
  constructor <;> norm_num at lo hi ⊢ <;> linarith

theorem pdfConst_pow {D : ℕ} (hD : D ≤ 6) :
    |(pdfConst * Real.sqrt (2 * Real.pi)) ^ D - 1| ≤ 2 / 10 ^ 8 := by
  have h := pdfConst_close
  set x := pdfConst * Real.sqrt (2 * Real.pi)
  rw [abs_le] at h ⊢
  have hx0 : (1 - 2 / 10 ^ 9 : ℝ) ≤ x := by linarith [h.1]
  have hx1 : x ≤ 1 + 2 / 10 ^ 9 := by linarith [h.2]
  have l1 : (1 - 2 / 10 ^ 9 : ℝ) ^ 6 ≤ x ^ D := by
    calc (1 - 2 / 10 ^ 9 : ℝ) ^ 6 ≤ (1 - 2 / 10 ^ 9 : ℝ) ^ D :=
          pow_le_pow_of_le_one (by norm_num) (by norm_num) hD
      _ ≤ x ^ D := pow_le_pow_left₀ (by norm_num) hx0 D
  have l2 : x ^ D ≤ (1 + 2 / 10 ^ 9 : ℝ) ^ 6 := by
    calc x ^ D ≤ (1 + 2 / 10 ^ 9 : ℝ) ^ D := pow_le_pow_left₀ (by linarith [show (0 : ℝ) ≤ 1 - 2 / 10 ^ 9 by norm_num]) hx1 D
      _ ≤ (1 + 2 / 10 ^ 9 : ℝ) ^ 6 := pow_le_pow_right₀ (by norm_num) hD
  constructor
  · have : (1 : ℝ) - 2 / 10 ^ 8 ≤ (1 - 2 / 10 ^ 9) ^ 6 := by norm_num
    linarith
  · have : (1 + 2 / 10 ^ 9 : ℝ) ^ 6 ≤ 1 + 2 / 10 ^ 8 := by norm_num
    linarith

theorem cuda_eq_tf {D n m : ℕ} (pts : Fin n → Fin D → ℝ) (ranges : List ℕ)
    (pairs : List (Fin n × Fin m)) (hd : RangesDelimit ranges pairs) (bw radii : Fin D → ℝ)
    (B W : ℕ) (hB : 0 < B) (hW : 0 < W) (out : ℕ → ℝ)
    (h : PdfFwd (pdfArgs pts pairs (fun i => ranges.getD i 0) bw radii) KDEMode.constant.value B W out)
    (i : Fin m) (hi : i.val < n) :
    out i.val = pdfOfPairs gauss pts bw radii .constant pairs ⟨i.val, hi⟩ *
      (pdfConst * Real.sqrt (2 * Real.pi)) ^ D := by
  rw [pdfFwd_eq _ _ B W hB hW out h i.val hi, ← pdf_cuda_tf pts ranges pairs hd bw radii i .constant hi]
  rfl

/-- **C84, constant bandwidth.** On every self neighbourhood the CUDA density
operation returns, for all launch sizes and schedules, the densities of the
TensorFlow implementation up to a relative error of `2·10⁻⁸` (less than the
rounding of single precision), which comes from the literal `0.39894228` in
place of `1/√(2π)`; bandwidths and radii are arbitrary. -/
theorem C84_constant_partial {k : ℕ} (dev : Device) (g : Grid (k + 2) ℝ) (radii : Fin (k + 2) → ℝ)
    (h : Nbh k ℝ) (hnew : Nbh.new dev g radii none = .ok h) (hk : k + 2 ≤ 6) (bw : Fin (k + 2) → ℝ)
    (B W : ℕ) (hB : 0 < B) (hW : 0 < W) (out : ℕ → ℝ)
    (hrun : PdfFwd (pdfArgs h.g.sortedPts h.nb.pairs (fun i => h.nb.ranges.getD i 0) bw h.radii)
      KDEMode.constant.value B W out) (i : Fin h.g.c.n) :
    |out i.val - h.pdfSorted gauss bw .constant i| ≤ 2 / 10 ^ 8 * |h.pdfSorted gauss bw .constant i| := by
  obtain ⟨e1, e2, e3, e4, hf⟩ := new_pairs hnew
  have hd := C19_ranges_partition dev h.g h.sample h.radii h.nb hf
  have hm : h.sample.n = h.g.c.n := by rw [e3, e1]; rfl
  have := cuda_eq_tf h.g.sortedPts h.nb.ranges h.nb.pairs hd bw h.radii B W hB hW out hrun
    ⟨i.val, by rw [hm]; exact i.isLt⟩ i.isLt
  simp only at this
  rw [this]
  have e : h.pdfSorted gauss bw .constant i =
      pdfOfPairs gauss h.g.sortedPts bw h.radii .constant h.nb.pairs ⟨i.val, i.isLt⟩ := rfl
  rw [e]
  set x := pdfOfPairs gauss h.g.sortedPts bw h.radii .constant h.nb.pairs ⟨i.val, i.isLt⟩
  have hx : x * (pdfConst * Real.sqrt (2 * Real.pi)) ^ (k + 2) - x =
      ((pdfConst * Real.sqrt (2 * Real.pi)) ^ (k + 2) - 1) * x := by ring
  rw [hx, abs_mul]
  exact mul_le_mul_of_nonneg_right (pdfConst_pow hk) (abs_nonneg _)

/-- **C84, number of points.** In mode `num_points` the CUDA operation ignores the
bandwidth it is given and returns the densities for the bandwidth `1/√n` in
every dimension, where `n` is the number of all points of the cloud. -/
theorem C84_num_points_bandwidth {D n m : ℕ} (pts : Fin n → Fin D → ℝ) (ranges : List ℕ)
    (pairs : List (Fin n × Fin m)) (hd : RangesDelimit ranges pairs) (bw radii : Fin D → ℝ)
    (B W : ℕ) (hB : 0 < B) (hW : 0 < W) (out : ℕ → ℝ)
    (h : PdfFwd (pdfArgs pts pairs (fun i => ranges.getD i 0) bw radii) KDEMode.numPoints.value B W out)
    (i : Fin m) (hi : i.val < n) :
    out i.val = pdfOfPairs gauss pts (fun _ => (Real.sqrt n)⁻¹) radii .constant pairs ⟨i.val, hi⟩ *
      (pdfConst * Real.sqrt (2 * Real.pi)) ^ D := by
  rw [pdfFwd_eq _ _ B W hB hW out h i.val hi, ← pdf_cuda_tf pts ranges pairs hd _ radii i .constant hi]
  have : (fun d : Fin D => ((fun _ : Fin D => (Real.sqrt n)⁻¹) d)⁻¹) =
      pdfInvBw KDEMode.numPoints.value (pdfArgs pts pairs (fun i => ranges.getD i 0) bw radii).invBw
        (pdfArgs pts pairs (fun i => ranges.getD i 0) bw radii).n := by
    funext d
    simp [pdfInvBw, KDEMode.value, pdfArgs]
  rw [this]
  rfl

theorem gauss_zero_pos : 0 < gauss 0 := gauss_pos 0

/-- A single point with itself as neighbour. -/
theorem onePair_delimit : RangesDelimit [1] [((0 : Fin 1), (0 : Fin 1))] := by
  refine ⟨rfl, by simp, rfl, ?_⟩
  intro i j
  have hi : i.val = 0 := by omega
  have hj : j.val = 0 := by have := j.isLt; simp only [List.length_cons, List.length_nil] at this; omega
  rw [hi, hj]
  have : i = 0 := Fin.ext hi
  subst this
  simp

/-- **C84, full statement.** It is false that the CUDA operation agrees with the
TensorFlow implementation (even up to `1 %`) in every mode: one point, bandwidth
`1/2`, mode `num_points`. -/
theorem C84_modes_false :
    ¬ ∀ (D n : ℕ) (pts : Fin n → Fin D → ℝ) (ranges : List ℕ) (pairs : List (Fin n × Fin n))
      (bw radii : Fin D → ℝ) (mode : KDEMode) (out : ℕ → ℝ) (i : Fin n),
      2 ≤ D → D ≤ 6 → RangesDelimit ranges pairs → (∀ d, 0 < bw d) → (∀ d, 0 < radii d) → mode ≠ .noPdf →
      PdfFwd (pdfArgs pts pairs (fun i => ranges.getD i 0) bw radii) mode.value 64 1 out →
      |out i.val - pdfOfPairs gauss pts bw radii mode pairs i| ≤
        1 / 100 * |pdfOfPairs gauss pts bw radii mode pairs i| := by
  intro h
  obtain ⟨out, hout⟩ := exists_pdfFwd (pdfArgs (fun (_ : Fin 1) (_ : Fin 2) => (0 : ℝ)) [((0 : Fin 1), (0 : Fin 1))]
    (fun i => [1].getD i 0) (fun _ => 1 / 2) (fun _ => 1)) KDEMode.numPoints.value 64 1
  have h1 := h 2 1 (fun _ _ => 0) [1] [(0, 0)] (fun _ => 1 / 2) (fun _ => 1) .numPoints out 0 (by decide) (by decide)
    onePair_delimit (fun _ => by norm_num) (fun _ => by norm_num) (by decide) hout
  have h2 := C84_num_points_bandwidth (fun (_ : Fin 1) (_ : Fin 2) => (0 : ℝ)) [1] [(0, 0)] onePair_delimit
    (fun _ => 1 / 2) (fun _ => 1) 64 1 (by decide) (by decide) out hout 0 (by decide)
  have e1 : ∀ b : ℝ, pdfOfPairs gauss (fun (_ : Fin 1) (_ : Fin 2) => (0 : ℝ)) (fun _ => b) (fun _ => 1) .constant
      [((0 : Fin 1), (0 : Fin 1))] 0 = gauss 0 ^ 2 / b ^ 2 := by
    intro b
    simp [pdfOfPairs, pairKernel, gatherPt]
  have e2 : pdfOfPairs gauss (fun (_ : Fin 1) (_ : Fin 2) => (0 : ℝ)) (fun _ => 1 / 2) (fun _ => 1) .numPoints
      [((0 : Fin 1), (0 : Fin 1))] 0 = gauss 0 ^ 2 / (1 / 2) ^ 2 := e1 (1 / 2)
  have h3 : out 0 = gauss 0 ^ 2 * (pdfConst * Real.sqrt (2 * Real.pi)) ^ 2 := by
    have e3 := e1 (Real.sqrt ((1 : ℕ) : ℝ))⁻¹
    exact h2.trans ((congrArg (fun x => x * (pdfConst * Real.sqrt (2 * Real.pi)) ^ 2) e3).trans (by simp))
  rw [e2] at h1
  simp only [Fin.val_zero] at h1
  rw [h3] at h1
  have hc := pdfConst_pow (D := 2) (by decide)
  have hg := gauss_zero_pos
  have hg2 : 0 < gauss 0 ^ 2 := by positivity
  set y := (pdfConst * Real.sqrt (2 * Real.pi)) ^ 2
  rw [abs_of_pos (show (0 : ℝ) < gauss 0 ^ 2 / (1 / 2) ^ 2 by positivity)] at h1
  rw [abs_le] at h1 hc
  have h5 : gauss 0 ^ 2 / (1 / 2) ^ 2 = 4 * gauss 0 ^ 2 := by ring
  rw [h5] at h1
  have h6 : 0 ≤ gauss 0 ^ 2 * (1 + 2 / 10 ^ 8 - y) := mul_nonneg hg2.le (by linarith [hc.2])
  nlinarith [h1.1, h6, hg2]

/-! ### C85: densities and the other points of the batch -/

/-- The densities of the constant mode depend only on the point and the
coordinates of its neighbours: two runs on different clouds (for instance a
cloud and a larger batch that contains it) give the same density to points with
the same coordinates and the same list of neighbour coordinates. -/
theorem C85_constant_local_partial {D : ℕ} (I I' : PdfIn D) (B W B' W' : ℕ) (hB : 0 < B) (hW : 0 < W)
    (hB' : 0 < B') (hW' : 0 < W') (hbw : I.invBw = I'.invBw) (hrad : I.invRad = I'.invRad)
    (i i' : ℕ) (hi : i < I.n) (hi' : i' < I'.n) (hp : I.pts i = I'.pts i')
    (hn : ((rangeIdx I.ends i).map (fun j => I.pts (I.nb j).1)).Perm
      ((rangeIdx I'.ends i').map (fun j => I'.pts (I'.nb j).1)))
    (out out' : ℕ → ℝ) (h : PdfFwd I KDEMode.constant.value B W out)
    (h' : PdfFwd I' KDEMode.constant.value B' W' out') : out i = out' i' := by
  rw [pdfFwd_eq I _ B W hB hW out h i hi, pdfFwd_eq I' _ B' W' hB' hW' out' h' i' hi']
  have e : ∀ (J : PdfIn D) (i : ℕ), ((rangeIdx J.ends i).map
      (pdfTerm J (pdfInvBw KDEMode.constant.value J.invBw J.n) i)).sum =
      (((rangeIdx J.ends i).map (fun j => J.pts (J.nb j).1)).map (fun q =>
        ∏ d, (J.invBw d * Real.exp (-((q d - J.pts i d) * J.invBw d * J.invRad d) ^ 2 / 2) * pdfConst))).sum := by
    intro J i
    rw [List.map_map]
    rfl
  rw [e I i, e I' i', hbw, hrad, hp]
  exact (hn.map _).sum_eq

/-- One point, and the same point with a far away second one that is nobody's
neighbour. -/
noncomputable abbrev exAlone : PdfIn 2 := ⟨1, fun i _ => 100 * i, fun j => (j, j), fun i => i + 1, fun _ => 5, fun _ => 1⟩
noncomputable abbrev exBatch : PdfIn 2 := ⟨2, fun i _ => 100 * i, fun j => (j, j), fun i => i + 1, fun _ => 5, fun _ => 1⟩

/-- **C85, mode `num_points`.** In this mode the density of a point changes when
another batch element is added to the batch, although neither its coordinates
nor its neighbours change. -/
theorem C85_num_points_false :
    ¬ ∀ (D : ℕ) (I I' : PdfIn D) (mode : KDEMode) (i i' : ℕ) (out out' : ℕ → ℝ), mode ≠ .noPdf →
      I.invBw = I'.invBw → I.invRad = I'.invRad → i < I.n → i' < I'.n → I.pts i = I'.pts i' →
      ((rangeIdx I.ends i).map (fun j => I.pts (I.nb j).1)).Perm
        ((rangeIdx I'.ends i').map (fun j => I'.pts (I'.nb j).1)) →
      PdfFwd I mode.value 64 1 out → PdfFwd I' mode.value 64 1 out' → out i = out' i' := by
  intro h
  obtain ⟨out, hout⟩ := exists_pdfFwd exAlone KDEMode.numPoints.value 64 1
  obtain ⟨out', hout'⟩ := exists_pdfFwd exBatch KDEMode.numPoints.value 64 1
  have h1 := h 2 exAlone exBatch .numPoints 0 0 out out' (by decide) rfl rfl (by decide) (by decide) rfl
    (List.Perm.refl _) hout hout'
  rw [pdfFwd_eq exAlone _ 64 1 (by decide) (by decide) out hout 0 (by decide),
    pdfFwd_eq exBatch _ 64 1 (by decide) (by decide) out' hout' 0 (by decide)] at h1
  have hr : rangeIdx (fun i => i + 1) 0 = [0] := by decide
  have e1 : ((rangeIdx exAlone.ends 0).map
      (pdfTerm exAlone (pdfInvBw KDEMode.numPoints.value exAlone.invBw exAlone.n) 0)).sum = pdfConst ^ 2 := by
    simp [hr, pdfTerm, pdfInvBw, KDEMode.value]
  have e2 : ((rangeIdx exBatch.ends 0).map
      (pdfTerm exBatch (pdfInvBw KDEMode.numPoints.value exBatch.invBw exBatch.n) 0)).sum =
      (Real.sqrt 2 * pdfConst) ^ 2 := by
    simp [hr, pdfTerm, pdfInvBw, KDEMode.value]
  rw [e1, e2, mul_pow, Real.sq_sqrt (by norm_num)] at h1
  have : (0 : ℝ) < pdfConst ^ 2 := by unfold pdfConst; norm_num
  linarith

end PC
