import Verif.Props.Resample
import Verif.Props.GpuHier
import Verif.Props.HierCover
import Mathlib.MeasureTheory.Measure.Lebesgue.EqHaar
import Mathlib.Analysis.InnerProductSpace.PiL2

/-!
# Sizes of Poisson samples (C169)
-/

set_option linter.unusedVariables false

namespace PC

open MeasureTheory Metric Module ENNReal Set in
/-- Packing in a ball: balls of radius `1/2` around the points are disjoint and lie in the ball of radius `R + 1/2` (after
`Besicovitch.card_le_of_separated`). -/
theorem card_separated_ball {E : Type*} [NormedAddCommGroup E] [NormedSpace ℝ E] [FiniteDimensional ℝ E] (s : Finset E) {R : ℝ}
    (hR : 0 ≤ R) (hs : ∀ c ∈ s, ‖c‖ ≤ R) (h : ∀ c ∈ s, ∀ d ∈ s, c ≠ d → 1 ≤ ‖c - d‖) : (s.card : ℝ) ≤ (2 * R + 1) ^ finrank ℝ E := by
  borelize E
  let μ : Measure E := Measure.addHaar
  let δ : ℝ := (1 : ℝ) / 2
  let ρ : ℝ := R + (1 : ℝ) / 2
  have ρpos : 0 < ρ := by positivity
  set A := ⋃ c ∈ s, ball (c : E) δ with hA
  have D : Set.Pairwise (s : Set E) (Function.onFun Disjoint fun c => ball (c : E) δ) := by
    rintro c hc d hd hcd
    apply ball_disjoint_ball
    rw [dist_eq_norm]
    have := h c hc d hd hcd
    norm_num [δ]
    exact this
  have A_subset : A ⊆ ball (0 : E) ρ := by
    refine iUnion₂_subset fun x hx => ?_
    apply ball_subset_ball'
    calc
      δ + dist x 0 ≤ δ + R := by rw [dist_zero_right]; exact add_le_add le_rfl (hs x hx)
      _ = ρ := by simp only [δ, ρ]; ring
  have I : (s.card : ℝ≥0∞) * ENNReal.ofReal (δ ^ finrank ℝ E) * μ (ball 0 1) ≤ ENNReal.ofReal (ρ ^ finrank ℝ E) * μ (ball 0 1) :=
    calc
      (s.card : ℝ≥0∞) * ENNReal.ofReal (δ ^ finrank ℝ E) * μ (ball 0 1) = μ A := by
        rw [hA, measure_biUnion_finset D fun c _ => measurableSet_ball]
        have I : 0 < δ := by norm_num [δ]
        simp only [μ.addHaar_ball_of_pos _ I]
        simp only [Finset.sum_const, nsmul_eq_mul, mul_assoc]
      _ ≤ μ (ball (0 : E) ρ) := measure_mono A_subset
      _ = ENNReal.ofReal (ρ ^ finrank ℝ E) * μ (ball 0 1) := by
        simp only [μ.addHaar_ball_of_pos _ ρpos]
  have J : (s.card : ℝ≥0∞) * ENNReal.ofReal (δ ^ finrank ℝ E) ≤ ENNReal.ofReal (ρ ^ finrank ℝ E) :=
    (ENNReal.mul_le_mul_iff_left (measure_ball_pos _ _ zero_lt_one).ne' measure_ball_lt_top.ne).1 I
  have K := ENNReal.toReal_le_of_le_ofReal (pow_nonneg ρpos.le _) J
  rw [ENNReal.toReal_mul, ENNReal.toReal_natCast, ENNReal.toReal_ofReal (by positivity)] at K
  have e : (2 * R + 1) ^ finrank ℝ E = ρ ^ finrank ℝ E / δ ^ finrank ℝ E := by
    rw [← div_pow]
    congr 1
    simp only [ρ, δ]
    ring
  rw [e, le_div_iff₀ (by positivity)]
  exact K

/-- Points at distance at least the radius within `R` radii of one position. -/
theorem card_separated {D : ℕ} {ι : Type*} (s : Finset ι) (p : ι → Fin D → ℝ) (rad : Fin D → ℝ) (x : Fin D → ℝ) {R : ℝ} (hR : 0 ≤ R)
    (hs : ∀ u ∈ s, ∑ d, ((p u d - x d) / rad d) ^ 2 ≤ R ^ 2)
    (h : ∀ u ∈ s, ∀ v ∈ s, u ≠ v → 1 ≤ ∑ d, ((p u d - p v d) / rad d) ^ 2) : (s.card : ℝ) ≤ (2 * R + 1) ^ D := by
  classical
  let f : ι → EuclideanSpace ℝ (Fin D) := fun u => WithLp.toLp 2 fun d => (p u d - x d) / rad d
  have hsub : ∀ u v, ‖f u - f v‖ ^ 2 = ∑ d, ((p u d - p v d) / rad d) ^ 2 := by
    intro u v
    rw [EuclideanSpace.norm_sq_eq]
    refine Finset.sum_congr rfl fun d _ => ?_
    simp only [f, PiLp.sub_apply, Real.norm_eq_abs, sq_abs]
    congr 1
    ring
  have hsep : ∀ u ∈ s, ∀ v ∈ s, u ≠ v → 1 ≤ ‖f u - f v‖ := by
    intro u hu v hv huv
    have := h u hu v hv huv
    rw [← hsub] at this
    nlinarith [norm_nonneg (f u - f v)]
  have hinj : Set.InjOn f s := by
    intro u hu v hv e
    by_contra hne
    have := hsep u hu v hv hne
    rw [e, sub_self, norm_zero] at this
    linarith
  have := card_separated_ball (s.image f) hR (by
    intro c hc
    obtain ⟨u, hu, rfl⟩ := Finset.mem_image.mp hc
    refine abs_le_of_sq_le_sq' ?_ hR |>.2
    rw [EuclideanSpace.norm_sq_eq]
    refine le_trans (le_of_eq ?_) (hs u hu)
    refine Finset.sum_congr rfl fun d _ => ?_
    simp only [f, Real.norm_eq_abs, sq_abs]) (by
    intro c hc d hd hcd
    obtain ⟨u, hu, rfl⟩ := Finset.mem_image.mp hc
    obtain ⟨v, hv, rfl⟩ := Finset.mem_image.mp hd
    exact hsep u hu v hv fun e => hcd (by rw [e]))
  rw [Finset.card_image_of_injOn hinj, finrank_euclideanSpace_fin] at this
  exact this

/-- Number of samples of a batch element. -/
def samplesOf {D n : ℕ} {K : Type*} (c : Cloud (Fin D → K)) (sel : Fin n → Fin c.n) (b : ℕ) : ℕ :=
  (Finset.univ.filter fun u : Fin n => c.batch (sel u) = b).card

/-- **C169.** Two Poisson samples of a cloud, the second with radii at most `R` times those of the first: in every batch
element the first has at most `(2 R + 1)^D` times as many samples. -/
theorem C169_radii {D n n' : ℕ} (c : Cloud (Fin D → ℝ)) (rad rad' : Fin D → ℝ) (hr : ∀ d, 0 < rad d) (hr' : ∀ d, 0 < rad' d) {R : ℝ} (hR : 0 ≤ R)
    (hle : ∀ d, rad' d ≤ R * rad d) (sel : Fin n → Fin c.n) (h : IsPoissonSample c rad sel) (sel' : Fin n' → Fin c.n)
    (h' : IsPoissonSample c rad' sel') (b : ℕ) : (samplesOf c sel b : ℝ) ≤ (2 * R + 1) ^ D * samplesOf c sel' b := by
  classical
  choose w w1 w2 using fun u => h'.covers (sel u)
  have hmaps : ∀ u ∈ Finset.univ.filter fun u : Fin n => c.batch (sel u) = b,
      w u ∈ Finset.univ.filter fun u : Fin n' => c.batch (sel' u) = b := by
    intro u hu
    rw [Finset.mem_filter] at hu ⊢
    exact ⟨Finset.mem_univ _, (w1 u).trans hu.2⟩
  unfold samplesOf
  rw [Finset.card_eq_sum_card_fiberwise hmaps, Nat.cast_sum]
  refine (Finset.sum_le_card_nsmul _ _ ((2 * R + 1) ^ D) fun v hv => ?_).trans (le_of_eq ?_)
  · refine card_separated _ (fun u => c.pts (sel u)) rad (c.pts (sel' v)) hR ?_ ?_
    · intro u hu
      rw [Finset.mem_filter] at hu
      have := (w2 u).le
      rw [hu.2] at this
      calc ∑ d, ((c.pts (sel u) d - c.pts (sel' v) d) / rad d) ^ 2
          ≤ ∑ d, R ^ 2 * ((c.pts (sel u) d - c.pts (sel' v) d) / rad' d) ^ 2 := by
            refine Finset.sum_le_sum fun d _ => ?_
            rw [div_pow, div_pow, ← mul_div_assoc, div_le_div_iff₀ (by have := hr d; positivity) (by have := hr' d; positivity)]
            have h1 : rad' d ^ 2 ≤ (R * rad d) ^ 2 := pow_le_pow_left₀ (hr' d).le (hle d) 2
            nlinarith [sq_nonneg (c.pts (sel u) d - c.pts (sel' v) d)]
        _ = R ^ 2 * ∑ d, ((c.pts (sel u) d - c.pts (sel' v) d) / rad' d) ^ 2 := by rw [Finset.mul_sum]
        _ ≤ R ^ 2 := mul_le_of_le_one_right (sq_nonneg R) this
    · intro u hu u' hu' huu
      rw [Finset.mem_filter, Finset.mem_filter] at hu hu'
      exact h.separated u u' huu (hu.1.2.trans hu'.1.2.symm)
  · rw [nsmul_eq_mul, mul_comm]

/-- **C169, two runs of the same call**: the numbers of samples of every batch element differ at most by the factor `3^D`. -/
theorem C169_runs {D n n' : ℕ} (c : Cloud (Fin D → ℝ)) (rad : Fin D → ℝ) (hr : ∀ d, 0 < rad d)
    (sel : Fin n → Fin c.n) (h : IsPoissonSample c rad sel) (sel' : Fin n' → Fin c.n) (h' : IsPoissonSample c rad sel') (b : ℕ) :
    samplesOf c sel b ≤ 3 ^ D * samplesOf c sel' b := by
  have := C169_radii c rad rad hr hr (R := 1) zero_le_one (fun d => by rw [one_mul]) sel h sel' h' b
  norm_num at this
  exact_mod_cast this

theorem countIn_of_pick {D : ℕ} {K : Type*} {c s : Cloud (Fin D → K)} (sel : Fin s.n → Fin c.n) (h : ∀ u, s.batch u = c.batch (sel u)) (b : ℕ) :
    s.countIn b = samplesOf c sel b := by
  unfold Cloud.countIn samplesOf
  simp only [h]

section
variable {k : ℕ}

/-- **C169, TensorFlow and GPU**: the sample of any run of the loop of the TensorFlow functions and that of any run of the CUDA
operation, with any schedule, have comparable sizes: in every batch element at most the factor `3^D`, in both directions. -/
theorem C169_tf_and_gpu_partial (Ws : ℕ) (dev : Device) (c : Cloud (Fin (k + 2) → ℝ)) (hv : c.Valid) (hn : 0 < c.n)
    (r eps : ℝ) (hr : 0 < r) (heps : 0 < eps) (hW : 0 < Ws) (hone : c.n ≤ 512 + Ws * 64)
    (h : Nbh k ℝ) (hnew : Nbh.new dev (⟨c, fun _ => r, eps⟩ : Grid (k + 2) ℝ) (fun _ => r) none = .ok h)
    (t t' s : Cloud (Fin (k + 2) → ℝ)) (ht : SamplingResult h 0 t) (ht' : SamplingResult h 0 t')
    (hs : GpuSample Ws (⟨c, fun _ => r, eps⟩ : Grid (k + 2) ℝ) 0 s) (b : ℕ) :
    t.countIn b ≤ 3 ^ (k + 2) * t'.countIn b ∧ t.countIn b ≤ 3 ^ (k + 2) * s.countIn b ∧
      s.countIn b ≤ 3 ^ (k + 2) * t.countIn b := by
  obtain ⟨e1, e2, e3, _, _⟩ := new_pairs hnew
  have hreg : Regular h := by
    refine ⟨?_, ?_, ?_, ?_, ?_⟩
    · rw [e1]; exact hv
    · rw [e2]; exact hr
    · intro d; rw [e2]
    · rw [e1, e2]
    · rw [e1]; exact heps
  have key : ∀ t, SamplingResult h 0 t → ∃ (n : ℕ) (sel : Fin n → Fin c.n), IsPoissonSample c (fun _ => r) sel ∧
      ∀ b, t.countIn b = samplesOf c sel b := by
    intro t ht
    cases ht with
    | poisson out hout =>
      obtain ⟨q1, q2⟩ := poissonResult_spec hnew hreg hout
      obtain ⟨g', rad', smp, eq', nb'⟩ := h
      simp only [Option.getD_none] at e1 e2 e3
      subst e1 e2 e3
      exact ⟨out.length, _, q1, fun b => countIn_of_pick (s := (poissonSample _ out).1) _ (fun u => rfl) b⟩
  obtain ⟨n1, sel1, p1, q1⟩ := key t ht
  obtain ⟨n2, sel2, p2, q2⟩ := key t' ht'
  obtain ⟨_, sel, p3, q3⟩ := gpuSample_poisson Ws (⟨c, fun _ => r, eps⟩ : Grid (k + 2) ℝ) (fun _ => hr) hW hn hone s hs
  have q3' := countIn_of_pick sel (fun u => (q3 u).2) b
  rw [q1, q2, q3']
  exact ⟨C169_runs c _ (fun _ => hr) _ p1 _ p2 b, C169_runs c _ (fun _ => hr) _ p1 _ p3 b, C169_runs c _ (fun _ => hr) _ p3 _ p1 b⟩

/-- **C169, such runs exist** on both devices, for every cloud with points. -/
theorem C169_exist (Ws : ℕ) (c : Cloud (Fin (k + 2) → ℝ)) (hv : c.Valid) (hn : 0 < c.n)
    (r eps : ℝ) (hr : 0 < r) (heps : 0 < eps) (hW : 0 < Ws) (hone : c.n ≤ 512 + Ws * 64) :
    ∃ h, Nbh.new .gpu (⟨c, fun _ => r, eps⟩ : Grid (k + 2) ℝ) (fun _ => r) none = .ok h ∧ (∃ t, SamplingResult h 0 t) ∧
      ∃ s, GpuSample Ws (⟨c, fun _ => r, eps⟩ : Grid (k + 2) ℝ) 0 s := by
  obtain ⟨h, hnew⟩ := nbhNew_gpu c hv hn hr heps
  obtain ⟨s, hs⟩ := C110_sample_runs hW (⟨c, fun _ => r, eps⟩ : Grid (k + 2) ℝ) (fun _ => hr) hn hone 0
  exact ⟨h, hnew, ⟨s, C110_poisson_refines_partial Ws .gpu c hv hn r eps hr heps hW hone h hnew s hs⟩, s, hs⟩

/-- Every Poisson sample, with its points in any order, is returned by some run of the loop of the TensorFlow functions. -/
theorem samplingResult_of_sample (dev : Device) (c : Cloud (Fin (k + 2) → ℝ)) (hv : c.Valid) (r eps : ℝ) (hr : 0 < r) (heps : 0 < eps)
    (h : Nbh k ℝ) (hnew : Nbh.new dev (⟨c, fun _ => r, eps⟩ : Grid (k + 2) ℝ) (fun _ => r) none = .ok h)
    {n : ℕ} (sel : Fin n → Fin c.n) (hs : IsPoissonSample c (fun _ => r) sel) : ∃ t, SamplingResult h 0 t ∧ t.n = n := by
  obtain ⟨e1, e2, e3, _, _⟩ := new_pairs hnew
  have hreg : Regular h := by
    refine ⟨?_, ?_, ?_, ?_, ?_⟩
    · rw [e1]; exact hv
    · rw [e2]; exact hr
    · intro d; rw [e2]
    · rw [e1, e2]
    · rw [e1]; exact heps
  obtain ⟨g', rad', smp, eq', nb'⟩ := h
  simp only [Option.getD_none] at e1 e2 e3
  subst e1 e2 e3
  refine ⟨_, .poisson (List.ofFn fun u => (⟨c, fun _ => r, eps⟩ : Grid (k + 2) ℝ).perm.symm (sel u)) ?_, List.length_ofFn⟩
  rw [C110_poisson_results dev _ _ _ hnew hreg]
  constructor
  · rw [List.pairwise_ofFn]
    rintro u v huv ⟨q1, q2⟩
    have q1' : c.batch (sel v) = c.batch (sel u) := by
      simpa [Grid.sortedBatch] using q1
    have q2' : normLt (fun d => c.pts (sel v) d - c.pts (sel u) d) r := by
      simpa [Grid.sortedPts] using q2
    rw [scaled_lt_iff _ _ hr] at q2'
    exact absurd q2' (not_lt.mpr (hs.separated u v (ne_of_lt huv) q1'.symm))
  · intro q
    obtain ⟨u, a1, a2⟩ := hs.covers ((⟨c, fun _ => r, eps⟩ : Grid (k + 2) ℝ).perm q)
    refine ⟨(⟨c, fun _ => r, eps⟩ : Grid (k + 2) ℝ).perm.symm (sel u), by simp [List.mem_ofFn], ?_, ?_⟩
    · simpa [Grid.sortedBatch] using a1.symm
    · have : normLt (fun d => c.pts ((⟨c, fun _ => r, eps⟩ : Grid (k + 2) ℝ).perm q) d - c.pts (sel u) d) r := by
        rw [scaled_lt_iff _ _ hr, scaled_comm]
        exact a2
      simpa [Grid.sortedPts] using this

end

/-! ### Hierarchies -/

theorem consecutive_step {β γ : Type*} (R : β → γ → β → Prop) (a : β) (rest : List β) (cs : List γ) (hlen : rest.length = cs.length)
    (h : Consecutive R (a :: rest) cs) (j : ℕ) (v : β) (c : γ) (hv : (a :: rest)[j + 1]? = some v) (hc : cs[j]? = some c) : ∃ u, R u c v := by
  induction cs generalizing a rest j with
  | nil => simp at hc
  | cons c' cs ih =>
    cases rest with
    | nil => simp at hlen
    | cons b rest =>
      obtain ⟨h1, h2⟩ := h
      cases j with
      | zero =>
        simp only [zero_add, List.getElem?_cons_succ, List.getElem?_cons_zero, Option.some.injEq] at hv hc
        subst hv hc
        exact ⟨a, h1⟩
      | succ j => exact ih b rest (by simpa using hlen) h2 j (by simpa using hv) (by simpa using hc)

section
variable {k : ℕ}

/-- One level of Poisson disk sampling: points of the level before it, at distance at least the radius. -/
theorem levelStep_poisson {dev : Device} {eps : ℝ} (heps : 0 < eps) {lower : String → String}
    {mode : String} {bs : Option (List ℕ)} {o o' : CloudObj (Fin (k + 2) → ℝ)} {a : Arg ℝ}
    {cs : Fin (k + 2) → ℝ} {h : Nbh k ℝ} (hv : o.c.Valid)
    (hst : LevelStep dev eps lower mode bs o a (.ok (o', cs, h))) (hpos : 0 < cs 0) (hmin : ∀ d, cs 0 ≤ cs d)
    (hmode : lower mode ∈ ["poisson", "poisson disk", "poisson_disk"]) :
    (∀ q : Fin o'.c.n, ∃ p : Fin o.c.n, o'.c.pts q = o.c.pts p ∧ o'.c.batch q = o.c.batch p) ∧
    ∀ q q' : Fin o'.c.n, q ≠ q' → o'.c.batch q = o'.c.batch q' → 1 ≤ ∑ d, ((o'.c.pts q d - o'.c.pts q' d) / cs 0) ^ 2 := by
  cases hst with
  | ok l h c hl hnew hs hb =>
    obtain ⟨out, ho, hc⟩ := ((C28_sample_modes_partial h lower mode).1 hmode _).mp hs
    simp only [Except.ok.injEq] at hc
    subst hc
    obtain ⟨e1, e2, e3, e4, _⟩ := new_pairs hnew
    have hreg : Regular h := by
      obtain ⟨g', r', s', q', nb'⟩ := h
      simp only at e1 e2
      subst e1 e2
      exact ⟨hv, hpos, hmin, rfl, heps⟩
    obtain ⟨h1, h2⟩ := poissonResult_spec hnew hreg ho
    have key : ∀ (c' : Cloud (Fin (k + 2) → ℝ)), c' = (poissonSample h out).1 →
        (∀ q : Fin c'.n, ∃ p : Fin o.c.n, c'.pts q = o.c.pts p ∧ c'.batch q = o.c.batch p) ∧
        ∀ q q' : Fin c'.n, q ≠ q' → c'.batch q = c'.batch q' → 1 ≤ ∑ d, ((c'.pts q d - c'.pts q' d) / vecOf (D := k + 2) l 0) ^ 2 := by
      intro c' hc'
      rw [h2] at hc'
      subst hc'
      refine ⟨fun q => ?_, fun q q' hne hbb => h1.separated q q' hne hbb⟩
      obtain ⟨g', r', s', q', nb'⟩ := h
      simp only at e1 e2
      subst e1 e2
      exact ⟨_, rfl, rfl⟩
    exact key _ (by rw [setBatchShape_c]; rfl)

/-- **C169, hierarchies**: two hierarchies of Poisson samples of the same cloud, with any random choices.  If the radius of a level of
the first is `r` and the radii up to a level of the second add up to `R`, the first level has in every batch element at most
`(2 R / r + 1)^D` times as many points.  (With the same radii, each at least twice the one before, `R < 2 r`: the factor `5^D`.) -/
theorem C169_hierarchy (dev dev' : Device) (eps : ℝ) (heps : 0 < eps)
    (lower : String → String) (mode mode' : String) (hmode : lower mode ∈ ["poisson", "poisson disk", "poisson_disk"])
    (hmode' : lower mode' ∈ ["poisson", "poisson disk", "poisson_disk"])
    (o : CloudObj (Fin (k + 2) → ℝ)) (hv : o.c.Valid)
    (sizes sizes' : List (Arg ℝ)) (H H' : Hier k ℝ) (hH : HierNew dev eps lower mode o sizes (.ok H))
    (hH' : HierNew dev' eps lower mode' o sizes' (.ok H'))
    (hpos : ∀ cs ∈ H.cellSizes, 0 < cs 0) (hmin : ∀ cs ∈ H.cellSizes, ∀ d, cs 0 ≤ cs d)
    (hpos' : ∀ cs ∈ H'.cellSizes, 0 < cs 0) (hmin' : ∀ cs ∈ H'.cellSizes, ∀ d, cs 0 ≤ cs d)
    (i j : ℕ) (a a' : CloudObj (Fin (k + 2) → ℝ)) (ha : H.clouds[i + 1]? = some a) (ha' : H'.clouds[j + 1]? = some a')
    (cs : Fin (k + 2) → ℝ) (hcs : H.cellSizes[i]? = some cs) (b : ℕ) :
    (a.c.countIn b : ℝ) ≤ (2 * ((((H'.cellSizes.take (j + 1)).map (fun cs => cs 0)).sum) / cs 0) + 1) ^ (k + 2) * a'.c.countIn b := by
  classical
  have hr : 0 < cs 0 := hpos cs (List.mem_of_getElem? hcs)
  obtain ⟨rest, e, hl, hc⟩ := hier_consecutive heps hv hH
    (fun cs hcs d => (hpos cs hcs).trans_le (hmin cs hcs d))
    (fun a cs b => (∀ q : Fin b.c.n, ∃ p : Fin a.c.n, b.c.pts q = a.c.pts p ∧ b.c.batch q = a.c.batch p) ∧
      ∀ q q' : Fin b.c.n, q ≠ q' → b.c.batch q = b.c.batch q' → 1 ≤ ∑ d, ((b.c.pts q d - b.c.pts q' d) / cs 0) ^ 2)
    (fun bs o a o' cs h hv hst hcs => levelStep_poisson heps hv hst (hpos cs hcs) (hmin cs hcs) hmode)
  rw [e] at ha
  obtain ⟨u, _, hsep⟩ := consecutive_step _ o rest _ hl hc i a cs ha hcs
  have hsub : ∀ q : Fin a.c.n, ∃ p : Fin o.c.n, a.c.pts q = o.c.pts p ∧ a.c.batch q = o.c.batch p :=
    consecutive_sum _ (fun (a : CloudObj (Fin (k + 2) → ℝ)) (_ : ℕ) b => ∀ q : Fin b.c.n, ∃ p : Fin a.c.n,
        b.c.pts q = a.c.pts p ∧ b.c.batch q = a.c.batch p) (fun _ => 0) (fun _ _ _ h => h.1)
      (by
        intro a x b y d h1 h2 q
        obtain ⟨p, p1, p2⟩ := h2 q
        obtain ⟨p', p1', p2'⟩ := h1 p
        exact ⟨p', p1.trans p1', p2.trans p2'⟩) o rest _ hl hc 0 (i + 1) (by omega) o a rfl ha
  have ho' : H'.clouds[0]? = some o := by
    rcases hH' with ⟨ls, hls, he⟩ | ⟨e, _, he⟩
    · simp only [Except.ok.injEq] at he
      subst he
      rfl
    · cases he
  have hcov := C118_poisson dev' eps heps lower mode' hmode' o hv sizes' H' hH' hpos' hmin' 0 (j + 1) (by omega) o a' ho' ha'
  simp only [List.drop_zero, Nat.sub_zero] at hcov
  have hR : 0 ≤ (((H'.cellSizes.take (j + 1)).map (fun cs => cs 0)).sum) := by
    refine List.sum_nonneg fun x hx => ?_
    obtain ⟨y, hy, rfl⟩ := List.mem_map.mp hx
    exact (hpos' y (List.mem_of_mem_take hy)).le
  generalize (((H'.cellSizes.take (j + 1)).map (fun cs => cs 0)).sum) = R at hcov hR ⊢
  choose p p1 p2 using hsub
  choose w w1 w2 using hcov
  have hmaps : ∀ q ∈ Finset.univ.filter fun q : Fin a.c.n => a.c.batch q = b,
      w (p q) ∈ Finset.univ.filter fun q : Fin a'.c.n => a'.c.batch q = b := by
    intro q hq
    rw [Finset.mem_filter] at hq ⊢
    exact ⟨Finset.mem_univ _, (w1 _).trans ((p2 q).symm.trans hq.2)⟩
  unfold Cloud.countIn
  rw [Finset.card_eq_sum_card_fiberwise hmaps, Nat.cast_sum]
  refine (Finset.sum_le_card_nsmul _ _ ((2 * (R / cs 0) + 1) ^ (k + 2)) fun v hv => ?_).trans (le_of_eq ?_)
  · refine card_separated _ (fun q => a.c.pts q) (fun _ => cs 0) (a'.c.pts v) (div_nonneg hR hr.le) ?_ ?_
    · intro q hq
      rw [Finset.mem_filter] at hq
      have := (w2 (p q)).2.le
      rw [hq.2] at this
      simp only [div_pow]
      rw [← Finset.sum_div, div_le_div_iff_of_pos_right (by positivity), sq R]
      refine le_trans (le_of_eq (Finset.sum_congr rfl fun d _ => ?_)) this
      rw [p1 q]
      ring
    · intro q hq q' hq' hne
      rw [Finset.mem_filter, Finset.mem_filter] at hq hq'
      exact hsep q q' hne (hq.1.2.trans hq'.1.2.symm)
  · rw [nsmul_eq_mul, mul_comm]

/-- **C169, levels of two hierarchies with the same radii**: level `i + 1` of one and level `j + 1` of the other, built from the
same cloud with one radius per level. -/
theorem C169_levels (dev dev' : Device) (eps : ℝ) (heps : 0 < eps)
    (lower : String → String) (mode mode' : String) (hmode : lower mode ∈ ["poisson", "poisson disk", "poisson_disk"])
    (hmode' : lower mode' ∈ ["poisson", "poisson disk", "poisson_disk"])
    (o : CloudObj (Fin (k + 2) → ℝ)) (hv : o.c.Valid)
    (rs : List ℝ) (hrs : ∀ r ∈ rs, 0 < r) (H H' : Hier k ℝ) (hH : HierNew dev eps lower mode o (rs.map oneSize) (.ok H))
    (hH' : HierNew dev' eps lower mode' o (rs.map oneSize) (.ok H'))
    (i j : ℕ) (a a' : CloudObj (Fin (k + 2) → ℝ)) (ha : H.clouds[i + 1]? = some a) (ha' : H'.clouds[j + 1]? = some a')
    (r : ℝ) (hr : rs[i]? = some r) (b : ℕ) :
    (a.c.countIn b : ℝ) ≤ (2 * ((rs.take (j + 1)).sum / r) + 1) ^ (k + 2) * a'.c.countIn b := by
  have hc := hier_oneSize hH
  have hc' := hier_oneSize hH'
  have := C169_hierarchy dev dev' eps heps lower mode mode' hmode hmode' o hv _ _ H H' hH hH'
    (by rw [hc]; simpa using hrs) (by rw [hc]; simp) (by rw [hc']; simpa using hrs) (by rw [hc']; simp) i j a a' ha ha'
    (fun _ => r) (by rw [hc, List.getElem?_map, hr]; rfl) b
  rw [hc', ← List.map_take, List.map_map] at this
  simpa [Function.comp_def] using this

/-- **C169, on the GPU**: the same for any two hierarchies that the CUDA kernels can build, under every two schedules. -/
theorem C169_gpu {Ws Ws' : ℕ} (hW : 0 < Ws) (hW' : 0 < Ws') {eps : ℝ} (heps : 0 < eps) {lower : String → String}
    {mode : String} (hmode : lower mode ∈ ["poisson", "poisson disk", "poisson_disk"])
    (o : CloudObj (Fin (k + 2) → ℝ)) (ho : GpuStepOk Ws o.batchShape o.c) (ho' : GpuStepOk Ws' o.batchShape o.c)
    (rs : List ℝ) (hrs : ∀ r ∈ rs, 0 < r)
    (res res' : Except Err (List (CloudObj (Fin (k + 2) → ℝ))))
    (h : GpuLevels Ws eps lower mode o.batchShape o (rs.map oneSize) res)
    (h' : GpuLevels Ws' eps lower mode o.batchShape o (rs.map oneSize) res') :
    ∃ os os' : List (CloudObj (Fin (k + 2) → ℝ)), res = .ok os ∧ res' = .ok os' ∧
      ∀ (i j : ℕ) (a a' : CloudObj (Fin (k + 2) → ℝ)), os[i]? = some a → os'[j]? = some a' → ∀ r, rs[i]? = some r → ∀ b,
        (a.c.countIn b : ℝ) ≤ (2 * ((rs.take (j + 1)).sum / r) + 1) ^ (k + 2) * a'.c.countIn b := by
  obtain ⟨os, H, h1, h2, h3⟩ := C110_poisson_hierarchy_partial hW heps hmode o ho rs hrs res h
  obtain ⟨os', H', h1', h2', h3'⟩ := C110_poisson_hierarchy_partial hW' heps hmode o ho' rs hrs res' h'
  refine ⟨os, os', h1, h1', fun i j a a' ha ha' r hr b => ?_⟩
  exact C169_levels .gpu .gpu eps heps lower mode mode hmode hmode o ho.valid rs hrs H H' h2 h2' i j a a'
    (by rw [h3]; exact ha) (by rw [h3']; exact ha') r hr b

end

/-! ### A row of equally spaced points -/

/-- One row of `_create_uniform_distributed_point_cloud_2D` (pylib/pc/tests/utils.py:59-66: `np.linspace` and `np.meshgrid`,
transposed): `N` points with the first coordinate `x`, the others at distance `s`.  The rows become batch elements in
sample_test.py:65-82, which passes the array without flattening it. -/
noncomputable def rowCloud (N : ℕ) (x s : ℝ) : Cloud (Fin 2 → ℝ) := ⟨N, fun i => ![x, i.val * s], fun _ => 0, 1⟩

theorem rowCloud_near {N : ℕ} {x s r : ℝ} (hs : 0 < s) (hsr : s < r) (hrs : r ≤ 2 * s) (i j : Fin N) :
    ∑ d, (((rowCloud N x s).pts i d - (rowCloud N x s).pts j d) / r) ^ 2 < 1 ↔ i.val ≤ j.val + 1 ∧ j.val ≤ i.val + 1 := by
  have hr : 0 < r := hs.trans hsr
  have e : ∑ d, (((rowCloud N x s).pts i d - (rowCloud N x s).pts j d) / r) ^ 2 = (((i.val : ℝ) - j.val) * s / r) ^ 2 := by
    simp only [rowCloud, Fin.sum_univ_two, Matrix.cons_val_zero, Matrix.cons_val_one, Matrix.cons_val_fin_one, sub_self, zero_div]
    ring
  rw [e, sq_lt_one_iff_abs_lt_one, abs_lt, div_lt_one hr, lt_div_iff₀ hr]
  constructor
  · rintro ⟨h1, h2⟩
    constructor
    · by_contra hc
      have : ((j.val : ℝ) + 2) ≤ i.val := by exact_mod_cast (by omega : j.val + 2 ≤ i.val)
      nlinarith
    · by_contra hc
      have : ((i.val : ℝ) + 2) ≤ j.val := by exact_mod_cast (by omega : i.val + 2 ≤ j.val)
      nlinarith
  · rintro ⟨h1, h2⟩
    have h1' : (i.val : ℝ) ≤ j.val + 1 := by exact_mod_cast h1
    have h2' : (j.val : ℝ) ≤ i.val + 1 := by exact_mod_cast h2
    constructor <;> nlinarith

/-- The Poisson samples of a row are the sets of points without two consecutive ones that leave no three consecutive points out
(nor the two at an end). -/
theorem rowCloud_sample {N n : ℕ} {x s r : ℝ} (hs : 0 < s) (hsr : s < r) (hrs : r ≤ 2 * s) (sel : Fin n → Fin N) :
    IsPoissonSample (rowCloud N x s) (fun _ => r) sel ↔
      (∀ u v, u ≠ v → (sel u).val + 2 ≤ (sel v).val ∨ (sel v).val + 2 ≤ (sel u).val) ∧
      ∀ i : Fin N, ∃ u, i.val ≤ (sel u).val + 1 ∧ (sel u).val ≤ i.val + 1 := by
  constructor
  · intro h
    refine ⟨fun u v huv => ?_, fun i => ?_⟩
    · have := h.separated u v huv rfl
      rw [← not_lt, rowCloud_near hs hsr hrs] at this
      omega
    · obtain ⟨u, _, hu⟩ := h.covers i
      exact ⟨u, (rowCloud_near hs hsr hrs i (sel u)).mp hu⟩
  · rintro ⟨h1, h2⟩
    refine ⟨fun u v huv => ?_, fun u v huv _ => ?_, fun i => ?_⟩
    · by_contra hne
      have := h1 u v hne
      rw [huv] at this
      omega
    · rw [← not_lt, rowCloud_near hs hsr hrs]
      have := h1 u v huv
      omega
    · obtain ⟨u, hu⟩ := h2 i
      exact ⟨u, rfl, (rowCloud_near hs hsr hrs i (sel u)).mpr hu⟩

/-- **C169, a row of the test of the sampling**: between a third and half of the points are selected. -/
theorem C169_row {N n : ℕ} {x s r : ℝ} (hs : 0 < s) (hsr : s < r) (hrs : r ≤ 2 * s) (sel : Fin n → Fin N)
    (h : IsPoissonSample (rowCloud N x s) (fun _ => r) sel) : N ≤ 3 * n ∧ 2 * n ≤ N + 1 := by
  obtain ⟨h1, h2⟩ := (rowCloud_sample hs hsr hrs sel).mp h
  constructor
  · choose w hw using h2
    have hc := Finset.card_le_mul_card_image_of_maps_to (f := w) (s := Finset.univ) (t := Finset.univ) (fun _ _ => Finset.mem_univ _) 3 (by
      intro u _
      have : ((Finset.univ.filter fun i : Fin N => w i = u).map Fin.valEmbedding) ⊆ {(sel u).val - 1, (sel u).val, (sel u).val + 1} := by
        intro j hj
        simp only [Finset.mem_map, Finset.mem_filter, Finset.mem_univ, true_and, Fin.valEmbedding_apply] at hj
        obtain ⟨i, rfl, rfl⟩ := hj
        have := hw i
        simp only [Finset.mem_insert, Finset.mem_singleton]
        omega
      have := Finset.card_le_card this
      rw [Finset.card_map] at this
      exact this.trans Finset.card_le_three)
    simpa using hc
  · have : Function.Injective fun z : Fin n × Fin 2 => (⟨(sel z.1).val + z.2.val, by have := (sel z.1).isLt; have := z.2.isLt; omega⟩ : Fin (N + 1)) := by
      rintro ⟨u, a⟩ ⟨v, b⟩ e
      have e' : (sel u).val + a.val = (sel v).val + b.val := congrArg Fin.val e
      by_cases huv : u = v
      · subst huv
        have : a = b := Fin.ext (by omega)
        rw [this]
      · have := h1 u v huv
        have := a.isLt
        have := b.isLt
        omega
    have := Fintype.card_le_of_injective _ this
    simp only [Fintype.card_prod, Fintype.card_fin] at this
    omega

/-- **C169, negation for equal sizes**: in the setting of `test_sampling_poisson_disk_on_uniform` (six points in a row, radius
twice a sixth of the length) some runs of the TensorFlow functions return the three samples that the test expects for the row,
others return two. -/
theorem C169_equal_false : ∃ h : Nbh 0 ℝ,
    Nbh.new .gpu (⟨rowCloud 6 0 (1 / 5), fun _ => 1 / 3, 1 / 10 ^ 8⟩ : Grid 2 ℝ) (fun _ => 1 / 3) none = .ok h ∧
    (∃ t, SamplingResult h 0 t ∧ t.n = 3) ∧ ∃ t, SamplingResult h 0 t ∧ t.n = 2 := by
  obtain ⟨h, hnew⟩ := nbhNew_gpu (k := 0) (rowCloud 6 0 (1 / 5)) (fun i => by simp [rowCloud]) (by simp [rowCloud])
    (r := 1 / 3) (eps := 1 / 10 ^ 8) (by norm_num) (by norm_num)
  refine ⟨h, hnew, ?_⟩
  have key : ∀ {n : ℕ} (sel : Fin n → Fin 6), (∀ u v, u ≠ v → (sel u).val + 2 ≤ (sel v).val ∨ (sel v).val + 2 ≤ (sel u).val) →
      (∀ i : Fin 6, ∃ u, i.val ≤ (sel u).val + 1 ∧ (sel u).val ≤ i.val + 1) → ∃ t, SamplingResult h 0 t ∧ t.n = n := by
    intro n sel h1 h2
    refine samplingResult_of_sample (k := 0) .gpu (rowCloud 6 0 (1 / 5)) (fun i => by simp [rowCloud]) (1 / 3) (1 / 10 ^ 8) (by norm_num) (by norm_num) h hnew sel ?_
    exact (rowCloud_sample (by norm_num) (by norm_num) (by norm_num) sel).mpr ⟨h1, h2⟩
  exact ⟨key ![0, 2, 4] (by decide) (by decide), key ![1, 4] (by decide) (by decide)⟩

/-- The hypotheses of `C169_row`, and with other radii those of `C169_radii`, are met by two samples of six points. -/
example : IsPoissonSample (rowCloud 6 0 (1 / 5)) (fun _ => 1 / 3) (![0, 2, 4] : Fin 3 → Fin 6) ∧
    IsPoissonSample (rowCloud 6 0 (1 / 5)) (fun _ => 2 / 5) (![1, 4] : Fin 2 → Fin 6) ∧
    (samplesOf (rowCloud 6 0 (1 / 5)) (![0, 2, 4] : Fin 3 → Fin 6) 0 : ℝ) ≤
      (2 * (6 / 5) + 1) ^ 2 * samplesOf (rowCloud 6 0 (1 / 5)) (![1, 4] : Fin 2 → Fin 6) 0 := by
  have h1 := (rowCloud_sample (x := 0) (s := 1 / 5) (r := 1 / 3) (by norm_num) (by norm_num) (by norm_num) (![0, 2, 4] : Fin 3 → Fin 6)).mpr
    ⟨by decide, by decide⟩
  have h2 := (rowCloud_sample (x := 0) (s := 1 / 5) (r := 2 / 5) (by norm_num) (by norm_num) (by norm_num) (![1, 4] : Fin 2 → Fin 6)).mpr
    ⟨by decide, by decide⟩
  exact ⟨h1, h2, C169_radii _ _ _ (fun _ => by norm_num) (fun _ => by norm_num) (by norm_num) (fun _ => by norm_num) _ h1 _ h2 0⟩

/-- The hypotheses of `C169_levels` hold for a hierarchy with two computed levels. -/
example : ∃ H : Hier 0 ℝ, HierNew .gpu (1 / 10) id "poisson" (CloudObj.ofCloud (rowCloud 6 0 (1 / 5)))
    ([1 / 3, 2 / 3].map oneSize) (.ok H) ∧
    ∀ a b, H.clouds[1]? = some a → H.clouds[2]? = some b → (a.c.countIn 0 : ℝ) ≤ 49 * b.c.countIn 0 := by
  have hv : (CloudObj.ofCloud (rowCloud 6 0 (1 / 5))).c.Valid := fun i => by simp [rowCloud, CloudObj.ofCloud]
  obtain ⟨H, hH⟩ := (C31_constructor_succeeds (k := 0) (1 / 10 : ℝ) (by norm_num) id "poisson" (by simp)
    (CloudObj.ofCloud (rowCloud 6 0 (1 / 5))) hv (by simp [rowCloud, CloudObj.ofCloud]) (by intro sh h; cases h)
    ([1 / 3, 2 / 3].map oneSize) (by
      intro a ha
      simp only [List.map_cons, List.map_nil, List.mem_cons, List.not_mem_nil, or_false] at ha
      rcases ha with rfl | rfl <;> simp [oneSize])).1
  refine ⟨H, hH, fun a b ha hb => ?_⟩
  have := C169_levels .gpu .gpu (1 / 10) (by norm_num) id "poisson" "poisson" (by simp) (by simp) _ hv _ (by norm_num) H H hH hH
    0 1 a b ha hb (1 / 3) rfl 0
  norm_num at this
  exact this

end PC
