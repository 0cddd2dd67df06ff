import Verif.Props.BatchElem
import Verif.Props.Stable

/-!
# C135: recording every point several times does not change the result

The clouds `c'` and features `f'` arise from `c` and `f` by repeating every point the same
number of times, in any order.
-/

set_option linter.unusedVariables false
set_option linter.unusedSectionVars false

namespace PC

section
variable {K : Type*} [Field K] [LinearOrder K] [IsStrictOrderedRing K] [FloorRing K] {k : ℕ}

/-- Specification: `c'` lists every point of `c` exactly `m` times (with its batch id), in any
order; `src i` is the point that row `i` repeats. -/
structure Repeats {D : ℕ} (c c' : Cloud (Fin D → K)) (m : ℕ) where
  src : Fin c'.n → Fin c.n
  times : ∀ p, (Finset.univ.filter (fun i => src i = p)).card = m
  pts : ∀ i, c'.pts i = c.pts (src i)
  batch : ∀ i, c'.batch i = c.batch (src i)

namespace Repeats

theorem sum_filter {D : ℕ} {c c' : Cloud (Fin D → K)} {m : ℕ} (s : Repeats c c' m) (P : Fin c.n → Prop)
    [DecidablePred P] (g : Fin c.n → K) :
    ∑ i ∈ Finset.univ.filter (fun i => P (s.src i)), g (s.src i) = m * ∑ p ∈ Finset.univ.filter P, g p := by
  have h1 : ∑ i ∈ Finset.univ.filter (fun i => P (s.src i)), g (s.src i) =
      ∑ p, ∑ i ∈ Finset.univ.filter (fun i => s.src i = p), (if P p then g p else 0) := by
    rw [Finset.sum_filter, ← Finset.sum_fiberwise (s := Finset.univ) (g := s.src)]
    refine Finset.sum_congr rfl fun p _ => Finset.sum_congr rfl fun i hi => ?_
    rw [(Finset.mem_filter.1 hi).2]
  rw [h1, Finset.mul_sum, Finset.sum_filter]
  refine Finset.sum_congr rfl fun p _ => ?_
  rw [Finset.sum_const, s.times p, nsmul_eq_mul]
  split
  · rfl
  · rw [mul_zero]

theorem sum_nbrs {D : ℕ} {c c' : Cloud (Fin D → K)} {m : ℕ} (s : Repeats c c' m) (cout : Cloud (Fin D → K)) (r : K)
    (i : Fin cout.n) (g : Fin c.n → K) :
    ∑ p ∈ nbrs c' cout r i, g (s.src p) = m * ∑ p ∈ nbrs c cout r i, g p := by
  rw [nbrs, nbrs, ← s.sum_filter (fun p => c.batch p = cout.batch i ∧ normLt (fun d => c.pts p d - cout.pts i d) r)]
  simp only [s.pts, s.batch]

theorem card_nbrs {D : ℕ} {c c' : Cloud (Fin D → K)} {m : ℕ} (s : Repeats c c' m) (cout : Cloud (Fin D → K)) (r : K)
    (i : Fin cout.n) : (nbrs c' cout r i).card = m * (nbrs c cout r i).card := by
  have h := s.sum_nbrs cout r i (fun _ => 1)
  simp only [Finset.sum_const, nsmul_eq_mul, mul_one] at h
  exact_mod_cast h

theorem mem_nbrs' {D : ℕ} {c c' : Cloud (Fin D → K)} {m : ℕ} (s : Repeats c c' m) (cout : Cloud (Fin D → K)) (r : K)
    (i : Fin cout.n) (p : Fin c'.n) : p ∈ nbrs c' cout r i ↔ s.src p ∈ nbrs c cout r i := by
  simp [nbrs, s.pts, s.batch]

theorem exists_src {D : ℕ} {c c' : Cloud (Fin D → K)} {m : ℕ} (s : Repeats c c' m) (hm : 0 < m) (p : Fin c.n) :
    ∃ i, s.src i = p := by
  have h := s.times p
  rw [← h, Finset.card_pos] at hm
  obtain ⟨i, hi⟩ := hm
  exact ⟨i, (Finset.mem_filter.1 hi).2⟩

theorem density_eq {D : ℕ} {c c' : Cloud (Fin (D + 1) → K)} {m : ℕ} (s : Repeats c c' m) (ker : K → K)
    (bw radii : Fin (D + 1) → K) (i : Fin c'.n) :
    density ker c' bw radii i = m * density ker c bw radii (s.src i) := by
  unfold density
  rw [← mul_div_assoc]
  congr 1
  rw [← s.sum_filter (fun q => c.batch q = c.batch (s.src i) ∧ normLt (fun d => c.pts q d - c.pts (s.src i) d) (radii 0))
    (fun q => ∏ d, ker ((c.pts q d - c.pts (s.src i) d) / (bw d * radii d)))]
  simp only [s.pts, s.batch]

theorem maxOver_eq {D : ℕ} {c c' : Cloud (Fin D → K)} {m : ℕ} (s : Repeats c c' m) (hm : 0 < m)
    (cout : Cloud (Fin D → K)) (r : K) (i : Fin cout.n) (g : Fin c.n → K) :
    maxOver (nbrs c' cout r i) (fun p => g (s.src p)) = maxOver (nbrs c cout r i) g := by
  unfold maxOver
  by_cases h : (nbrs c cout r i).Nonempty
  · have h' : (nbrs c' cout r i).Nonempty := by
      obtain ⟨p, hp⟩ := h
      obtain ⟨q, rfl⟩ := s.exists_src hm p
      exact ⟨q, (s.mem_nbrs' cout r i q).2 hp⟩
    rw [dif_pos h, dif_pos h']
    apply le_antisymm
    · exact Finset.sup'_le _ _ fun q hq => Finset.le_sup' g ((s.mem_nbrs' cout r i q).1 hq)
    · refine Finset.sup'_le _ _ fun p hp => ?_
      obtain ⟨q, rfl⟩ := s.exists_src hm p
      exact Finset.le_sup' (fun p => g (s.src p)) ((s.mem_nbrs' cout r i q).2 hp)
  · have h' : ¬ (nbrs c' cout r i).Nonempty := by
      rintro ⟨q, hq⟩
      exact h ⟨_, (s.mem_nbrs' cout r i q).1 hq⟩
    rw [dif_neg h, dif_neg h']

theorem maxOver_mul {ι : Type*} (t : Finset ι) (g : ι → K) (a : K) (ha : 0 ≤ a) :
    maxOver t (fun p => a * g p) = a * maxOver t g := by
  unfold maxOver
  by_cases h : t.Nonempty
  · rw [dif_pos h, dif_pos h]
    apply le_antisymm
    · exact Finset.sup'_le _ _ fun q hq => mul_le_mul_of_nonneg_left (Finset.le_sup' g hq) ha
    · obtain ⟨p, hp, e⟩ := Finset.exists_mem_eq_sup' h g
      rw [e]
      exact Finset.le_sup' (fun p => a * g p) hp
  · rw [dif_neg h, dif_neg h, mul_zero]

end Repeats

variable {cin cin' cout : Cloud (Fin (k + 2) → K)} {m : ℕ}

/-- **C135, MCConv**: if every point of the input is recorded `m` times, the output is the same. -/
theorem C135_mcconv (s : Repeats cin cin' m) (hm : 0 < m) (ker act : K → K) (dev dev' : Device)
    (eps eps' : K) (L : MCLayer K) (radius bw : K) (hok : LayerOk cin cout radius eps)
    (hok' : LayerOk cin' cout radius eps') (f : Fin cin.n → ℕ → K) (out out' : Fin cout.n → ℕ → K)
    (h : L.call ker act dev eps cin cout radius bw f = .ok out)
    (h' : L.call ker act dev' eps' cin' cout radius bw (fun i => f (s.src i)) = .ok out') : out' = out := by
  funext i o
  rw [C41_mcconv_formula ker act dev eps L cin cout radius bw hok f out h i o,
    C41_mcconv_formula ker act dev' eps' L cin' cout radius bw hok' _ out' h' i o]
  unfold mcSpec
  have hm' : (m : K) ≠ 0 := by exact_mod_cast hm.ne'
  simp only [s.pts, s.density_eq]
  rw [s.sum_nbrs cout radius i (fun p => ∑ ch ∈ Finset.range L.cin, ∑ hh ∈ Finset.range L.hid,
    f p ch * (mlpEval act (o / (L.cout / L.mlps)) (k + 2) L.layers
        (rowOf (fun d => (cin.pts p d - cout.pts i d) / radius)) hh /
          (m * density ker cin (fun _ => bw) (fun _ => radius) p)) *
      L.final (o / (L.cout / L.mlps)) (ch * L.hid + hh) (o % (L.cout / L.mlps)))]
  rw [Finset.mul_sum]
  refine Finset.sum_congr rfl fun p _ => ?_
  rw [Finset.mul_sum]
  refine Finset.sum_congr rfl fun ch _ => ?_
  rw [Finset.mul_sum]
  refine Finset.sum_congr rfl fun hh _ => ?_
  rw [← div_div, div_right_comm]
  field_simp

/-- **C135, PointConv** multiplies the output by `m`. -/
theorem C135_pointconv_partial (s : Repeats cin cin' m) (hm : 0 < m) (ker act : K → K) (dev dev' : Device)
    (eps eps' : K) (L : PCLayer K) (radius bw : K) (hok : LayerOk cin cout radius eps)
    (hok' : LayerOk cin' cout radius eps') (f : Fin cin.n → ℕ → K) (out out' : Fin cout.n → ℕ → K)
    (h : L.call ker act dev eps cin cout radius bw f = .ok out)
    (h' : L.call ker act dev' eps' cin' cout radius bw (fun i => f (s.src i)) = .ok out') (i : Fin cout.n) (o : ℕ) :
    out' i o = m * out i o := by
  rw [C41_pointconv_formula ker act dev eps L cin cout radius bw hok f out h i o,
    C41_pointconv_formula ker act dev' eps' L cin' cout radius bw hok' _ out' h' i o]
  unfold pcSpec
  have hm' : (m : K) ≠ 0 := by exact_mod_cast hm.ne'
  have e1 : maxOver (nbrs cin' cout radius i) (density ker cin' (fun _ => bw) (fun _ => radius)) =
      m * maxOver (nbrs cin cout radius i) (density ker cin (fun _ => bw) (fun _ => radius)) := by
    rw [← Repeats.maxOver_mul _ _ _ (Nat.cast_nonneg m), ← s.maxOver_eq hm]
    congr 1
    funext p
    exact s.density_eq ker _ _ p
  rw [e1]
  simp only [s.pts, s.density_eq, mul_div_mul_left _ _ hm']
  exact s.sum_nbrs cout radius i (fun p => ∑ ch ∈ Finset.range L.cin, ∑ hh ∈ Finset.range L.hid,
    f p ch * (act (∑ i_1 ∈ Finset.range (k + 2),
        rowOf (fun d => cin.pts p d - cout.pts i d) i_1 * L.axis i_1 hh + L.bias hh) /
      densityNet L.pw1 L.pb1 L.pw2 L.pb2 (density ker cin (fun _ => bw) (fun _ => radius) p /
        maxOver (nbrs cin cout radius i) (density ker cin (fun _ => bw) (fun _ => radius)))) *
      L.weights (ch * L.hid + hh) o)

/-- Maximum and mean of repeated values. -/
theorem Repeats.pool {D : ℕ} {c c' : Cloud (Fin D → K)} (s : Repeats c c' m) (hm : 0 < m) (op : PoolOp)
    (P : Fin c.n → Prop) [DecidablePred P] (g : Fin c.n → K) {x x' : Option K}
    (a : PoolSpec op (Finset.univ.filter P) g x)
    (a' : PoolSpec op (Finset.univ.filter (fun i => P (s.src i))) (fun i => g (s.src i)) x') : x' = x := by
  have hm' : (m : K) ≠ 0 := by exact_mod_cast hm.ne'
  cases op with
  | max =>
    have a' : IsMaxOf (Finset.univ.filter (fun i => P (s.src i))) (fun i => g (s.src i)) x' := a'
    refine a'.unique ?_
    cases x with
    | none =>
      have a : Finset.univ.filter P = ∅ := a
      show Finset.univ.filter (fun i => P (s.src i)) = ∅
      rw [Finset.filter_eq_empty_iff] at a ⊢
      exact fun i _ => a (Finset.mem_univ _)
    | some v =>
      obtain ⟨⟨p, hp, e⟩, hub⟩ := (a : (∃ p ∈ Finset.univ.filter P, g p = v) ∧ ∀ p ∈ Finset.univ.filter P, g p ≤ v)
      obtain ⟨q, rfl⟩ := s.exists_src hm p
      exact ⟨⟨q, by simpa using hp, e⟩, fun q hq => hub _ (by simpa using hq)⟩
  | mean =>
    have a : x = some (meanOf _ _) := a
    have a' : x' = some (meanOf _ _) := a'
    rw [a, a']
    have h1 := s.sum_filter P g
    have h2 : (Finset.univ.filter (fun i => P (s.src i))).card = m * (Finset.univ.filter P).card := by
      have h := s.sum_filter P (fun _ => (1 : K))
      simp only [Finset.sum_const, nsmul_eq_mul, mul_one] at h
      exact_mod_cast h
    unfold meanOf
    rw [h1, h2]
    by_cases hc : (Finset.univ.filter P).card = 0
    · simp [hc]
    · rw [if_neg hc, if_neg (Nat.mul_ne_zero hm.ne' hc)]
      push_cast
      rw [mul_div_mul_left _ _ hm']

/-- **C135, local pooling** (maximum and mean). -/
theorem C135_pool (s : Repeats cin cin' m) (hm : 0 < m) (op : PoolOp) (dev dev' : Device) (eps eps' : K)
    (radius : RadiusArg K) (radii : Fin (k + 2) → K) (hr : poolRadius (k + 2) radius = .ok radii)
    (hok : PoolOk cin radii eps) (hok' : PoolOk cin' radii eps') (f : Fin cin.n → ℕ → K)
    (out out' : Fin cout.n → ℕ → Option K) (h : localPool op dev eps cin cout radius f = .ok out)
    (h' : localPool op dev' eps' cin' cout radius (fun i => f (s.src i)) = .ok out') : out' = out := by
  funext i ch
  have a := localPool_spec op dev eps cin cout radius radii hr hok f out h i ch
  have a' := localPool_spec op dev' eps' cin' cout radius radii hr hok' _ out' h' i ch
  refine s.pool hm op (fun p => cin.batch p = cout.batch i ∧ normLt (fun d => cin.pts p d - cout.pts i d) (radii 0))
    (fun p => f p ch) a ?_
  unfold nbrs at a'
  simpa only [s.pts, s.batch] using a'

/-- **C135, global pooling** (maximum and mean). -/
theorem C135_global_pool {D : ℕ} {c c' : Cloud (Fin D → K)} (s : Repeats c c' m) (hm : 0 < m) (op : PoolOp)
    (b : Fin c.B) (b' : Fin c'.B) (hb : b'.val = b.val) (f : Fin c.n → ℕ → K) (ch : ℕ) :
    globalPool op c' (fun i => f (s.src i)) b' ch = globalPool op c f b ch := by
  refine s.pool hm op (fun p => c.batch p = b.val) (fun p => f p ch) (globalPool_spec op c f b ch) ?_
  have a' := globalPool_spec op c' (fun i => f (s.src i)) b' ch
  rw [hb] at a'
  simpa only [s.batch] using a'

end

/-- **C135, KPConv** with fixed kernel points multiplies the output by `m`. -/
theorem C135_kpconv_partial {k m : ℕ} {cin cin' cout : Cloud (Fin (k + 2) → ℝ)} (s : Repeats cin cin' m)
    (dev dev' : Device) (eps eps' : ℝ) (L : KPLayer (k + 2)) (radius : ℝ) (hok : LayerOk cin cout radius eps)
    (hok' : LayerOk cin' cout radius eps') (influence : Option ℝ) (hcin : 0 < L.cin) (hnk : 0 < L.nk)
    (hkp : L.nkp = L.nk) (hoffs : L.offs = none) (f : Fin cin.n → ℕ → ℝ) (n n' : ℕ) (out out' : ℕ → ℕ → ℝ)
    (h : L.call dev eps cin cout radius influence f = .ok (n, out))
    (h' : L.call dev' eps' cin' cout radius influence (fun i => f (s.src i)) = .ok (n', out')) (i : Fin cout.n)
    (o : ℕ) : out' i.val o = m * out i.val o := by
  have key : ∀ (dev : Device) (eps : ℝ) (cin cout : Cloud (Fin (k + 2) → ℝ)) (hok : LayerOk cin cout radius eps)
      (f : Fin cin.n → ℕ → ℝ) (n : ℕ) (out : ℕ → ℕ → ℝ), L.call dev eps cin cout radius influence f = .ok (n, out) →
      ∀ (i : Fin cout.n) (o : ℕ), out i.val o = kpSpec L (kpSigma influence radius) cin cout radius f i o := by
    intro dev eps cin cout hok f n out h i o
    cases hl : layerNbh dev eps cin cout radius with
    | error e =>
      unfold KPLayer.call at h
      rw [hl] at h
      cases h
    | ok nh =>
      obtain ⟨out2, h2, h3⟩ := C41_kpconv_formula dev eps L cin cout radius hok influence hcin hnk hkp f nh hl
      rw [h] at h2
      cases h2
      exact h3 i o
  rw [key dev eps cin cout hok f n out h, key dev' eps' cin' cout hok' _ n' out' h']
  unfold kpSpec
  rw [hoffs]
  simp only [s.pts]
  exact s.sum_nbrs cout radius i (fun p => ∑ ch ∈ Finset.range L.cin, ∑ b ∈ Finset.range L.nk,
    f p ch * L.interp.weight (norm2 (fun d => (cin.pts p d - cout.pts i d) / radius - (L.kp b d + 0)))
      (kpSigma influence radius) * L.weights (ch * L.nk + b) o)

/-! ### a point recorded twice -/

/-- One point at the origin. -/
abbrev onePt : Cloud (Fin 2 → ℝ) := ⟨1, fun _ _ => 0, fun _ => 0, 1⟩
/-- The same point, recorded twice. -/
abbrev onePtTwice : Cloud (Fin 2 → ℝ) := ⟨2, fun _ _ => 0, fun _ => 0, 1⟩

def onePt_repeats : Repeats onePt onePtTwice 2 where
  src := fun _ => (0 : Fin 1)
  times := fun p => by
    have : p = (0 : Fin 1) := Subsingleton.elim (α := Fin 1) _ _
    subst this
    simp
  pts := fun _ => rfl
  batch := fun _ => rfl

theorem onePt_ok (c : Cloud (Fin 2 → ℝ)) : LayerOk onePt c 1 (1 / 100) :=
  ⟨fun _ => Nat.zero_lt_one, one_pos, by norm_num⟩

theorem onePtTwice_ok (c : Cloud (Fin 2 → ℝ)) : LayerOk onePtTwice c 1 (1 / 100) :=
  ⟨fun _ => Nat.zero_lt_one, one_pos, by norm_num⟩

/-- **C135 fails for KPConv**: recording the only point twice doubles the output. -/
theorem C135_kpconv_false : ¬ ∀ (cin cin' cout : Cloud (Fin 2 → ℝ)) (m : ℕ) (s : Repeats cin cin' m) (L : KPLayer 2)
    (radius eps : ℝ) (f : Fin cin.n → ℕ → ℝ) (n n' : ℕ) (out out' : ℕ → ℕ → ℝ), 0 < m →
    LayerOk cin cout radius eps → LayerOk cin' cout radius eps →
    L.call (k := 0) .gpu eps cin cout radius none f = .ok (n, out) →
    L.call (k := 0) .gpu eps cin' cout radius none (fun i => f (s.src i)) = .ok (n', out') →
    ∀ (i : Fin cout.n) (o : ℕ), out' i.val o = out i.val o := by
  intro hall
  obtain ⟨nh, hh⟩ := layerNbh_gpu (k := 0) (1 / 100) onePt onePt 1 (onePt_ok _) (by norm_num)
    (fun _ => Nat.zero_lt_one)
  obtain ⟨out, e1, e2⟩ := C41_kpconv_formula (k := 0) .gpu (1 / 100) exCrossKP onePt onePt 1 (onePt_ok _) none
    (by norm_num) (by norm_num) rfl (fun _ _ => 1) nh hh
  obtain ⟨nh', hh'⟩ := layerNbh_gpu (k := 0) (1 / 100) onePtTwice onePt 1 (onePtTwice_ok _) (by norm_num)
    (fun _ => Nat.zero_lt_one)
  obtain ⟨out', e1', e2'⟩ := C41_kpconv_formula (k := 0) .gpu (1 / 100) exCrossKP onePtTwice onePt 1 (onePtTwice_ok _)
    none (by norm_num) (by norm_num) rfl (fun _ _ => 1) nh' hh'
  have h1 := hall onePt onePtTwice onePt 2 onePt_repeats exCrossKP 1 (1 / 100) (fun _ _ => 1) _ _ out out' (by norm_num)
    (onePt_ok _) (onePtTwice_ok _) e1 e1' (0 : Fin 1) 0
  have h2 := C135_kpconv_partial (k := 0) onePt_repeats .gpu .gpu (1 / 100) (1 / 100) exCrossKP 1 (onePt_ok _)
    (onePtTwice_ok _) none (by norm_num) (by norm_num) rfl rfl (fun _ _ => 1) _ _ out out' e1 e1' (0 : Fin 1) 0
  have h3 : out (0 : Fin 1).val 0 ≠ 0 := by
    refine (e2 (0 : Fin 1) 0).trans_ne ?_
    have hn : nbrs onePt onePt 1 (0 : Fin 1) = {(0 : Fin 1)} := by
      ext p
      have : p = (0 : Fin 1) := Subsingleton.elim (α := Fin 1) _ _
      simp [nbrs, normLt, this]
    unfold kpSpec
    rw [hn, Finset.sum_singleton, Finset.sum_range_one, Finset.sum_range_one]
    simp [Interp.weight, kpSigma, Real.exp_ne_zero]
  rw [h1] at h2
  have : out (0 : Fin 1).val 0 = 0 := by push_cast at h2; linarith
  exact h3 this

/-- The doubled point with the layer of `exGradMC`: both calls return, with equal results. -/
example : ∃ out : Fin 1 → ℕ → ℝ,
    (⟨3, 4, 2, [⟨4, fun _ _ _ => 1, fun _ _ => 1⟩], fun _ _ _ => 1⟩ : MCLayer ℝ).call (k := 0) gauss id .gpu (1 / 100)
      onePt onePt 1 (1 / 4) (fun _ _ => 1) = .ok out ∧
    (⟨3, 4, 2, [⟨4, fun _ _ _ => 1, fun _ _ => 1⟩], fun _ _ _ => 1⟩ : MCLayer ℝ).call (k := 0) gauss id .gpu (1 / 100)
      onePtTwice onePt 1 (1 / 4) (fun _ _ => 1) = .ok out := by
  obtain ⟨out, h⟩ := C41_mcconv_returns (k := 0) gauss id (1 / 100)
    (⟨3, 4, 2, [⟨4, fun _ _ _ => 1, fun _ _ => 1⟩], fun _ _ _ => 1⟩ : MCLayer ℝ) onePt onePt 1 (1 / 4) (onePt_ok _)
    (by norm_num) (by norm_num) (fun _ => Nat.zero_lt_one) (fun _ _ => 1)
  obtain ⟨out', h'⟩ := C41_mcconv_returns (k := 0) gauss id (1 / 100)
    (⟨3, 4, 2, [⟨4, fun _ _ _ => 1, fun _ _ => 1⟩], fun _ _ _ => 1⟩ : MCLayer ℝ) onePtTwice onePt 1 (1 / 4)
    (onePtTwice_ok _) (by norm_num) (by norm_num) (fun _ => Nat.zero_lt_one) (fun _ _ => 1)
  have := C135_mcconv (k := 0) onePt_repeats (by norm_num) gauss id .gpu .gpu (1 / 100) (1 / 100) _ 1 (1 / 4)
    (onePt_ok _) (onePtTwice_ok _) (fun _ _ => 1) out out' h h'
  subst this
  exact ⟨_, h, h'⟩

end PC
