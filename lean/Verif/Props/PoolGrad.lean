import Verif.PoolGrad
import Verif.Props.Pooling
import Mathlib.Analysis.Calculus.Deriv.Mul
import Mathlib.Analysis.Calculus.Deriv.Add
import Mathlib.Tactic.FinCases

/-!
# Properties of the gradients of the pooling layers (C157)
-/

set_option linter.unusedVariables false
set_option linter.unusedSectionVars false

namespace PC

open Filter Topology

/-- Maximum of moving numbers: where all that attain the maximum have the same velocity, this is the velocity of the
maximum. -/
theorem hasDerivAt_sup' {ι : Type*} (s : Finset ι) (hs : s.Nonempty) (x : ℝ → ι → ℝ) (x' : ι → ℝ) (v θ₀ : ℝ)
    (hx : ∀ i ∈ s, HasDerivAt (fun θ => x θ i) (x' i) θ₀) (hv : ∀ i ∈ s, x θ₀ i = s.sup' hs (x θ₀) → x' i = v) :
    HasDerivAt (fun θ => s.sup' hs (x θ)) v θ₀ := by
  classical
  set M := s.sup' hs (x θ₀) with hM
  have hev : ∀ᶠ θ in 𝓝 θ₀, ∃ i ∈ s, x θ₀ i = M ∧ s.sup' hs (x θ) = x θ i := by
    obtain ⟨i₀, hi₀, hmax⟩ := s.exists_mem_eq_sup' hs (x θ₀)
    have h1 : ∀ i ∈ s, ∀ᶠ θ in 𝓝 θ₀, x θ₀ i < M → x θ i < x θ i₀ := by
      intro i hi
      by_cases hlt : x θ₀ i < M
      · have hlt' : x θ₀ i < x θ₀ i₀ := by rw [← hmax]; exact hlt
        exact ((hx i hi).continuousAt.eventually_lt (hx i₀ hi₀).continuousAt hlt').mono fun θ h _ => h
      · exact Eventually.of_forall fun θ h => absurd h hlt
    have h2 : ∀ᶠ θ in 𝓝 θ₀, ∀ i ∈ s, x θ₀ i < M → x θ i < x θ i₀ := (Finset.eventually_all s).mpr h1
    filter_upwards [h2] with θ hθ
    obtain ⟨i, hi, hmi⟩ := s.exists_mem_eq_sup' hs (x θ)
    refine ⟨i, hi, ?_, hmi⟩
    by_contra hne
    have hle : x θ₀ i ≤ M := Finset.le_sup' (x θ₀) hi
    have hlt := hθ i hi (lt_of_le_of_ne hle hne)
    have : x θ i₀ ≤ s.sup' hs (x θ) := Finset.le_sup' (x θ) hi₀
    linarith
  rw [hasDerivAt_iff_isLittleO]
  have hsum : (fun θ => ∑ i ∈ s.filter (fun i => x θ₀ i = M), ‖x θ i - x θ₀ i - (θ - θ₀) • v‖) =o[𝓝 θ₀] fun θ => θ - θ₀ := by
    refine Asymptotics.IsLittleO.fun_sum fun i hi => ?_
    obtain ⟨hi, he⟩ := Finset.mem_filter.mp hi
    have := hasDerivAt_iff_isLittleO.mp (hx i hi)
    rw [hv i hi he] at this
    exact this.norm_left
  refine Asymptotics.IsBigO.trans_isLittleO ?_ hsum
  refine Asymptotics.IsBigO.of_bound 1 ?_
  filter_upwards [hev] with θ ⟨i, hi, he, hs'⟩
  rw [one_mul, hs', Real.norm_of_nonneg (Finset.sum_nonneg fun _ _ => norm_nonneg _)]
  have hmem : i ∈ s.filter (fun i => x θ₀ i = M) := Finset.mem_filter.mpr ⟨hi, he⟩
  have := Finset.single_le_sum (f := fun i => ‖x θ i - x θ₀ i - (θ - θ₀) • v‖) (fun _ _ => norm_nonneg _) hmem
  have he' : s.sup' hs (x θ₀) = x θ₀ i := he.symm
  rw [he']
  exact this

/-- The loss `Σ G * pooled`; `low` is the smallest float, the maximum of an empty segment. -/
noncomputable def poolLoss (op : PoolOp) {n : ℕ} (S : ℕ) (low : ℝ) (ids : Fin n → ℕ) (G : ℕ → ℝ) (x : Fin n → ℝ) : ℝ :=
  ∑ s ∈ Finset.range S, G s * (op.apply x ids s).getD low

theorem segMax_some {n : ℕ} (x : Fin n → ℝ) (ids : Fin n → ℕ) (s : ℕ) (h : (segRows ids s).Nonempty) :
    segMax x ids s = some ((segRows ids s).sup' h x) := dif_pos h

theorem sum_segments {n : ℕ} (S : ℕ) (ids : Fin n → ℕ) (hS : ∀ i, ids i < S) (u : Fin n → ℝ) :
    ∑ i, u i = ∑ s ∈ Finset.range S, ∑ i ∈ segRows ids s, u i := by
  classical
  rw [← Finset.sum_fiberwise_of_maps_to (t := Finset.range S) (g := ids) (fun i _ => Finset.mem_range.mpr (hS i))]
  rfl

/-- The entries of a segment that attain its maximum. -/
theorem active_nonempty {n : ℕ} (x : Fin n → ℝ) (ids : Fin n → ℕ) (s : ℕ) (h : (segRows ids s).Nonempty) :
    ((segRows ids s).filter (fun j => segMax x ids (ids j) = some (x j))).Nonempty := by
  obtain ⟨i, hi, hm⟩ := (segRows ids s).exists_mem_eq_sup' h x
  have his := mem_segRows.mp hi
  refine ⟨i, Finset.mem_filter.mpr ⟨hi, ?_⟩⟩
  rw [his, segMax_some x ids s h, hm]

/-- Gradients times numbers, segment by segment. -/
theorem grad_max_pairing {n : ℕ} (x : Fin n → ℝ) (ids : Fin n → ℕ) (G : ℕ → ℝ) (u : Fin n → ℝ) (s : ℕ) :
    ∑ i ∈ segRows ids s, PoolOp.max.grad x ids G i * u i =
      G s * ((∑ i ∈ (segRows ids s).filter (fun j => segMax x ids (ids j) = some (x j)), u i) /
        (((segRows ids s).filter (fun j => segMax x ids (ids j) = some (x j))).card : ℝ)) := by
  rw [Finset.sum_filter, div_eq_mul_inv, Finset.sum_mul, Finset.mul_sum]
  refine Finset.sum_congr rfl fun i hi => ?_
  have his := mem_segRows.mp hi
  simp only [PoolOp.grad]
  rw [his]
  by_cases h : segMax x ids s = some (x i)
  · rw [if_pos h, if_pos h]; ring
  · rw [if_neg h, if_neg h]; ring

/-- **Specification of the partial result**: of the entries of a segment with non-zero upstream gradient, all those that
attain the maximum have the same velocity (e.g. because there is only one). -/
def TiesMove {n : ℕ} (x : Fin n → ℝ) (x' : Fin n → ℝ) (ids : Fin n → ℕ) (G : ℕ → ℝ) : Prop :=
  ∀ i j, ids i = ids j → G (ids i) ≠ 0 → (∀ l, ids l = ids i → x l ≤ x i) → (∀ l, ids l = ids i → x l ≤ x j) → x' i = x' j

theorem pool_deriv (op : PoolOp) {n : ℕ} (S : ℕ) (low : ℝ) (ids : Fin n → ℕ) (hS : ∀ i, ids i < S) (G : ℕ → ℝ)
    (x : ℝ → Fin n → ℝ) (x' : Fin n → ℝ) (θ₀ : ℝ) (hx : ∀ i, HasDerivAt (fun θ => x θ i) (x' i) θ₀)
    (ht : op = .max → TiesMove (x θ₀) x' ids G) :
    HasDerivAt (fun θ => poolLoss op S low ids G (x θ)) (∑ i, op.grad (x θ₀) ids G i * x' i) θ₀ := by
  rw [sum_segments S ids hS]
  unfold poolLoss
  refine HasDerivAt.fun_sum fun s _ => ?_
  cases op with
  | mean =>
    have e : ∑ i ∈ segRows ids s, PoolOp.mean.grad (x θ₀) ids G i * x' i =
        G s * ((∑ i ∈ segRows ids s, x' i) / ((max (segRows ids s).card 1 : ℕ) : ℝ)) := by
      rw [div_eq_mul_inv, Finset.sum_mul, Finset.mul_sum]
      refine Finset.sum_congr rfl fun i hi => ?_
      simp only [PoolOp.grad, mem_segRows.mp hi]
      ring
    rw [e]
    refine HasDerivAt.const_mul _ ?_
    exact (HasDerivAt.fun_sum fun i _ => hx i).div_const _
  | max =>
    rw [grad_max_pairing]
    by_cases hG : G s = 0
    · simp only [hG, zero_mul]; exact hasDerivAt_const _ _
    refine HasDerivAt.const_mul _ ?_
    by_cases hne : (segRows ids s).Nonempty
    · have e : (fun θ => (PoolOp.max.apply (x θ) ids s).getD low) = fun θ => (segRows ids s).sup' hne (x θ) := by
        funext θ; simp only [PoolOp.apply, segMax_some _ ids s hne, Option.getD_some]
      rw [e]
      obtain ⟨i₀, hi₀⟩ := active_nonempty (x θ₀) ids s hne
      have hact : ∀ i ∈ (segRows ids s).filter (fun j => segMax (x θ₀) ids (ids j) = some (x θ₀ j)), x' i = x' i₀ := by
        have key : ∀ i ∈ (segRows ids s).filter (fun j => segMax (x θ₀) ids (ids j) = some (x θ₀ j)),
            ids i = s ∧ ∀ l, ids l = s → x θ₀ l ≤ x θ₀ i := by
          intro i hi
          obtain ⟨h1, h2⟩ := Finset.mem_filter.mp hi
          have his := mem_segRows.mp h1
          rw [his, segMax_some _ ids s hne] at h2
          refine ⟨his, fun l hl => ?_⟩
          rw [← Option.some.inj h2]
          exact Finset.le_sup' (x θ₀) (mem_segRows.mpr hl)
        intro i hi
        obtain ⟨a1, a2⟩ := key i hi
        obtain ⟨b1, b2⟩ := key i₀ hi₀
        exact ht rfl i i₀ (a1.trans b1.symm) (by rwa [a1]) (by rwa [a1]) (by rwa [a1])
      have hval : (∑ i ∈ (segRows ids s).filter (fun j => segMax (x θ₀) ids (ids j) = some (x θ₀ j)), x' i) /
          (((segRows ids s).filter (fun j => segMax (x θ₀) ids (ids j) = some (x θ₀ j))).card : ℝ) = x' i₀ := by
        rw [Finset.sum_congr rfl hact, Finset.sum_const, nsmul_eq_mul]
        have : (((segRows ids s).filter (fun j => segMax (x θ₀) ids (ids j) = some (x θ₀ j))).card : ℝ) ≠ 0 := by
          exact_mod_cast (Finset.card_pos.mpr ⟨i₀, hi₀⟩).ne'
        field_simp
      rw [hval]
      refine hasDerivAt_sup' _ hne x x' _ θ₀ (fun i _ => hx i) fun i hi he => hact i ?_
      refine Finset.mem_filter.mpr ⟨hi, ?_⟩
      rw [mem_segRows.mp hi, segMax_some _ ids s hne, he]
    · have hemp := Finset.not_nonempty_iff_eq_empty.mp hne
      have e : (fun θ => (PoolOp.max.apply (x θ) ids s).getD low) = fun _ => low := by
        funext θ; simp only [PoolOp.apply, segMax, dif_neg hne, Option.getD_none]
      rw [e, hemp]
      simpa using hasDerivAt_const θ₀ low

/-- The gradient of the maximum is a subgradient. -/
theorem pool_subgradient (op : PoolOp) {n : ℕ} (S : ℕ) (low : ℝ) (ids : Fin n → ℕ) (hS : ∀ i, ids i < S) (G : ℕ → ℝ)
    (hG : ∀ s, 0 ≤ G s) (x y : Fin n → ℝ) :
    poolLoss op S low ids G x + ∑ i, op.grad x ids G i * (y i - x i) ≤ poolLoss op S low ids G y := by
  rw [sum_segments S ids hS]
  unfold poolLoss
  rw [← Finset.sum_add_distrib]
  refine Finset.sum_le_sum fun s _ => ?_
  cases op with
  | mean =>
    refine le_of_eq ?_
    have e : ∑ i ∈ segRows ids s, PoolOp.mean.grad x ids G i * (y i - x i) =
        G s * ((∑ i ∈ segRows ids s, (y i - x i)) / ((max (segRows ids s).card 1 : ℕ) : ℝ)) := by
      rw [div_eq_mul_inv, Finset.sum_mul, Finset.mul_sum]
      refine Finset.sum_congr rfl fun i hi => ?_
      simp only [PoolOp.grad, mem_segRows.mp hi]
      ring
    rw [e, Finset.sum_sub_distrib]
    simp only [PoolOp.apply, segMean, Option.getD_some]
    ring
  | max =>
    rw [grad_max_pairing, ← mul_add]
    refine mul_le_mul_of_nonneg_left ?_ (hG s)
    by_cases hne : (segRows ids s).Nonempty
    · simp only [PoolOp.apply, segMax_some _ ids s hne, Option.getD_some]
      have hpos : (0 : ℝ) < (((segRows ids s).filter (fun j => segMax x ids (ids j) = some (x j))).card : ℝ) := by
        exact_mod_cast Finset.card_pos.mpr (active_nonempty x ids s hne)
      have hle : ∑ i ∈ (segRows ids s).filter (fun j => segMax x ids (ids j) = some (x j)), (y i - x i) ≤
          ∑ i ∈ (segRows ids s).filter (fun j => segMax x ids (ids j) = some (x j)),
            ((segRows ids s).sup' hne y - (segRows ids s).sup' hne x) := by
        refine Finset.sum_le_sum fun i hi => ?_
        obtain ⟨h1, h2⟩ := Finset.mem_filter.mp hi
        rw [mem_segRows.mp h1, segMax_some _ ids s hne] at h2
        rw [← Option.some.inj h2]
        exact sub_le_sub_right (Finset.le_sup' y h1) _
      rw [Finset.sum_const, nsmul_eq_mul] at hle
      have := (div_le_iff₀' hpos).mpr hle
      linarith
    · have hemp := Finset.not_nonempty_iff_eq_empty.mp hne
      simp [PoolOp.apply, segMax, hemp]

/-- Every gradient is passed on completely, but for empty segments. -/
theorem pool_grad_sum (op : PoolOp) {n : ℕ} (S : ℕ) (ids : Fin n → ℕ) (hS : ∀ i, ids i < S) (G : ℕ → ℝ) (x : Fin n → ℝ) :
    ∑ i, op.grad x ids G i = ∑ s ∈ Finset.range S, if (segRows ids s).Nonempty then G s else 0 := by
  rw [sum_segments S ids hS]
  refine Finset.sum_congr rfl fun s _ => ?_
  by_cases hne : (segRows ids s).Nonempty
  · rw [if_pos hne]
    cases op with
    | mean =>
      have hc : (0 : ℝ) < ((segRows ids s).card : ℝ) := by exact_mod_cast Finset.card_pos.mpr hne
      have hmx : Max.max (segRows ids s).card 1 = (segRows ids s).card := max_eq_left (Finset.card_pos.mpr hne)
      have : ∀ i ∈ segRows ids s, PoolOp.mean.grad x ids G i = G s / ((segRows ids s).card : ℝ) := by
        intro i hi
        simp only [PoolOp.grad, mem_segRows.mp hi, hmx]
      rw [Finset.sum_congr rfl this, Finset.sum_const, nsmul_eq_mul]
      field_simp
    | max =>
      have h := grad_max_pairing x ids G (fun _ => 1) s
      simp only [mul_one] at h
      rw [h, Finset.sum_const, nsmul_eq_mul, mul_one, div_self, mul_one]
      exact_mod_cast (Finset.card_pos.mpr (active_nonempty x ids s hne)).ne'
  · rw [if_neg hne, Finset.not_nonempty_iff_eq_empty.mp hne, Finset.sum_empty]

/-! ### The layers -/

/-- **C157, global pooling.** Along every motion of the features, for average pooling always and for maximum pooling where
ties move together, the derivative of the loss is the sum of gradients times velocities (every channel). -/
theorem C157_global_partial (op : PoolOp) {α : Type*} (c : Cloud α) (hb : ∀ i, c.batch i < c.B) (low : ℝ) (nc : ℕ)
    (G : ℕ → ℕ → ℝ) (f : ℝ → Fin c.n → ℕ → ℝ) (f' : Fin c.n → ℕ → ℝ) (θ₀ : ℝ)
    (hf : ∀ i, ∀ ch < nc, HasDerivAt (fun θ => f θ i ch) (f' i ch) θ₀)
    (ht : op = .max → ∀ ch < nc, TiesMove (fun i => f θ₀ i ch) (fun i => f' i ch) c.batch (fun b => G b ch)) :
    HasDerivAt (fun θ => ∑ b : Fin c.B, ∑ ch ∈ Finset.range nc, G b.val ch * (globalPool op c (f θ) b ch).getD low)
      (∑ i, ∑ ch ∈ Finset.range nc, globalPoolGrad op c (f θ₀) G i ch * f' i ch) θ₀ := by
  have e : (fun θ => ∑ b : Fin c.B, ∑ ch ∈ Finset.range nc, G b.val ch * (globalPool op c (f θ) b ch).getD low) =
      fun θ => ∑ ch ∈ Finset.range nc, poolLoss op c.B low c.batch (fun b => G b ch) (fun i => f θ i ch) := by
    funext θ
    rw [Finset.sum_comm]
    refine Finset.sum_congr rfl fun ch _ => ?_
    exact Fin.sum_univ_eq_sum_range (fun s => G s ch * (op.apply (fun i => f θ i ch) c.batch s).getD low) c.B
  rw [e, Finset.sum_comm]
  refine HasDerivAt.fun_sum fun ch hch => ?_
  have hch := Finset.mem_range.mp hch
  exact pool_deriv op c.B low c.batch hb (fun b => G b ch) (fun θ i => f θ i ch) (fun i => f' i ch) θ₀ (fun i => hf i ch hch)
    (fun h => ht h ch hch)

theorem localPoolGrad_pairing (op : PoolOp) {n m : ℕ} (pairs : List (Fin n × Fin m)) (f : Fin n → ℕ → ℝ) (G : ℕ → ℕ → ℝ)
    (u : Fin n → ℝ) (ch : ℕ) :
    ∑ p, localPoolGrad op pairs f G p ch * u p = ∑ j : Fin pairs.length,
      op.grad (fun j : Fin pairs.length => f (pairs.get j).1 ch) (fun j => (pairs.get j).2.val) (fun c => G c ch) j *
        u (pairs.get j).1 := by
  unfold localPoolGrad
  simp only [Finset.sum_mul, gatherD_fin]
  rw [Finset.sum_comm]
  refine Finset.sum_congr rfl fun j _ => ?_
  rw [Finset.sum_eq_single (pairs.get j).1]
  · rw [if_pos rfl]
  · intro p _ hne; rw [if_neg (fun e => hne (Fin.val_injective e).symm), zero_mul]
  · intro hn; exact absurd (Finset.mem_univ _) hn

variable {k : ℕ}

/-- What a local pooling and its backward pass compute, in terms of one list of pairs: every point with each of its
centres, once. -/
theorem local_pairs (op : PoolOp) (dev : Device) (eps : ℝ) (cin cout : Cloud (Fin (k + 2) → ℝ)) (radius : RadiusArg ℝ)
    (radii : Fin (k + 2) → ℝ) (hr : poolRadius (k + 2) radius = .ok radii) (hok : PoolOk cin radii eps)
    (f₀ : Fin cin.n → ℕ → ℝ) (out₀ : Fin cout.n → ℕ → Option ℝ) (h₀ : localPool op dev eps cin cout radius f₀ = .ok out₀) :
    ∃ pairs : List (Fin cin.n × Fin cout.n), pairs.Nodup ∧ (∀ p c, (p, c) ∈ pairs ↔ p ∈ nbrs cin cout (radii 0) c) ∧
      (∀ f, localPool op dev eps cin cout radius f = .ok (fun c ch => op.apply (fun j : Fin pairs.length => f (pairs.get j).1 ch)
        (fun j => (pairs.get j).2.val) c.val)) ∧
      ∀ f G, localPoolBackward op dev eps cin cout radius f G = .ok (localPoolGrad op pairs f G) := by
  unfold localPool at h₀
  rw [hr] at h₀
  dsimp only at h₀
  cases hn : Nbh.new dev (⟨cin, radii, eps⟩ : Grid (k + 2) ℝ) radii (some cout) with
  | error e => rw [hn] at h₀; simp at h₀
  | ok nh =>
    clear h₀
    have hfw : ∀ f, localPool op dev eps cin cout radius f = .ok (fun c ch => op.apply (fun j : Fin nh.originalNeighIds.length =>
        gatherD f (nh.originalNeighIds.get j).1.val ch) (fun j => (nh.originalNeighIds.get j).2.val) c.val) := by
      intro f
      unfold localPool
      rw [hr]
      dsimp only
      rw [hn]
    have hbw : ∀ f G, localPoolBackward op dev eps cin cout radius f G = .ok (localPoolGrad op nh.originalNeighIds f G) := by
      intro f G
      unfold localPoolBackward
      rw [hr]
      dsimp only
      rw [hn]
    obtain ⟨e1, e2, e3, e4, hf⟩ := new_pairs hn
    obtain ⟨h1, h2, h3⟩ := C20_original_ids dev _ _ _ nh hn
    obtain ⟨g', r', s', q', nb'⟩ := nh
    simp only [Option.getD_some] at e1 e2 e3
    subst e1 e2 e3
    have h3 := h3 ⟨hok.valid, hok.radius_pos, hok.radius_min, rfl, hok.eps_pos⟩
    refine ⟨(⟨⟨cin, r', eps⟩, r', s', q', nb'⟩ : Nbh k ℝ).originalNeighIds, h2, fun p c => ?_, fun f => ?_, hbw⟩
    · rw [mem_nbrs]
      exact ⟨h1 p c, h3 p c⟩
    · rw [hfw]
      simp only [gatherD_fin]

/-- **C157, local pooling.** Along every motion of the features, for average pooling always and for maximum pooling where
neighbours of a centre with the same, largest feature move together, the derivative of the loss is the sum of gradients
times velocities. -/
theorem C157_local_partial (op : PoolOp) (dev : Device) (eps : ℝ) (cin cout : Cloud (Fin (k + 2) → ℝ)) (radius : RadiusArg ℝ)
    (radii : Fin (k + 2) → ℝ) (hr : poolRadius (k + 2) radius = .ok radii) (hok : PoolOk cin radii eps) (low : ℝ) (nc : ℕ)
    (G : ℕ → ℕ → ℝ) (f : ℝ → Fin cin.n → ℕ → ℝ) (f' : Fin cin.n → ℕ → ℝ) (θ₀ : ℝ)
    (hf : ∀ p, ∀ ch < nc, HasDerivAt (fun θ => f θ p ch) (f' p ch) θ₀)
    (ht : op = .max → ∀ ch < nc, ∀ c : Fin cout.n, G c.val ch ≠ 0 → ∀ p ∈ nbrs cin cout (radii 0) c, ∀ q ∈ nbrs cin cout (radii 0) c,
      (∀ l ∈ nbrs cin cout (radii 0) c, f θ₀ l ch ≤ f θ₀ p ch) → (∀ l ∈ nbrs cin cout (radii 0) c, f θ₀ l ch ≤ f θ₀ q ch) →
      f' p ch = f' q ch)
    (out : ℝ → Fin cout.n → ℕ → Option ℝ) (ho : ∀ θ, localPool op dev eps cin cout radius (f θ) = .ok (out θ)) :
    ∃ g, localPoolBackward op dev eps cin cout radius (f θ₀) G = .ok g ∧
      HasDerivAt (fun θ => ∑ c : Fin cout.n, ∑ ch ∈ Finset.range nc, G c.val ch * (out θ c ch).getD low)
        (∑ p, ∑ ch ∈ Finset.range nc, g p ch * f' p ch) θ₀ := by
  obtain ⟨pairs, hnd, hmem, hfw, hbw⟩ := local_pairs op dev eps cin cout radius radii hr hok _ _ (ho θ₀)
  refine ⟨_, hbw _ _, ?_⟩
  have e : (fun θ => ∑ c : Fin cout.n, ∑ ch ∈ Finset.range nc, G c.val ch * (out θ c ch).getD low) =
      fun θ => ∑ ch ∈ Finset.range nc, poolLoss op cout.n low (fun j : Fin pairs.length => (pairs.get j).2.val) (fun c => G c ch)
        (fun j => f θ (pairs.get j).1 ch) := by
    funext θ
    rw [Finset.sum_comm]
    refine Finset.sum_congr rfl fun ch _ => ?_
    have := (Except.ok.inj ((ho θ).symm.trans (hfw (f θ))))
    rw [this]
    exact Fin.sum_univ_eq_sum_range (fun s => G s ch * (op.apply (fun j : Fin pairs.length => f θ (pairs.get j).1 ch)
      (fun j => (pairs.get j).2.val) s).getD low) cout.n
  rw [e, Finset.sum_comm]
  refine HasDerivAt.fun_sum fun ch hch => ?_
  have hch := Finset.mem_range.mp hch
  rw [localPoolGrad_pairing op pairs (f θ₀) G (fun p => f' p ch) ch]
  refine pool_deriv op cout.n low _ (fun j => (pairs.get j).2.isLt) (fun c => G c ch) (fun θ j => f θ (pairs.get j).1 ch)
    (fun j => f' (pairs.get j).1 ch) θ₀ (fun j => hf _ ch hch) (fun hop i j hij hG hi hj => ?_)
  have hc : ∀ i : Fin pairs.length, (pairs.get i).1 ∈ nbrs cin cout (radii 0) (pairs.get i).2 := fun i =>
    (hmem _ _).1 (List.get_mem _ i)
  have hij' : (pairs.get i).2 = (pairs.get j).2 := Fin.val_injective hij
  have hall : ∀ l ∈ nbrs cin cout (radii 0) (pairs.get i).2, ∃ t : Fin pairs.length, pairs.get t = (l, (pairs.get i).2) := by
    intro l hl
    obtain ⟨t, ht'⟩ := List.mem_iff_get.mp ((hmem l _).2 hl)
    exact ⟨t, ht'⟩
  refine ht hop ch hch (pairs.get i).2 hG _ (hc i) _ (by rw [hij']; exact hc j) (fun l hl => ?_) (fun l hl => ?_)
  · obtain ⟨t, ht'⟩ := hall l hl
    have h2 : (pairs.get t).2.val = (pairs.get i).2.val := by rw [ht']
    have h3 : f θ₀ (pairs.get t).1 ch ≤ f θ₀ (pairs.get i).1 ch := hi t h2
    rwa [ht'] at h3
  · obtain ⟨t, ht'⟩ := hall l hl
    have h2 : (pairs.get t).2.val = (pairs.get i).2.val := by rw [ht']
    have h3 : f θ₀ (pairs.get t).1 ch ≤ f θ₀ (pairs.get j).1 ch := hj t h2
    rwa [ht'] at h3

/-- **C157, ties.** Whatever the features, for upstream gradients that are not negative the loss lies above the affine
function given by the gradients (they are a subgradient), for both kinds of pooling; so a step against the gradient is a
subgradient step. -/
theorem C157_local_subgradient (op : PoolOp) (dev : Device) (eps : ℝ) (cin cout : Cloud (Fin (k + 2) → ℝ)) (radius : RadiusArg ℝ)
    (radii : Fin (k + 2) → ℝ) (hr : poolRadius (k + 2) radius = .ok radii) (hok : PoolOk cin radii eps) (low : ℝ) (nc : ℕ)
    (G : ℕ → ℕ → ℝ) (hG : ∀ c ch, 0 ≤ G c ch) (f f' : Fin cin.n → ℕ → ℝ) (out out' : Fin cout.n → ℕ → Option ℝ)
    (ho : localPool op dev eps cin cout radius f = .ok out) (ho' : localPool op dev eps cin cout radius f' = .ok out') :
    ∃ g, localPoolBackward op dev eps cin cout radius f G = .ok g ∧
      ∑ c : Fin cout.n, ∑ ch ∈ Finset.range nc, G c.val ch * (out c ch).getD low +
        ∑ p, ∑ ch ∈ Finset.range nc, g p ch * (f' p ch - f p ch) ≤
      ∑ c : Fin cout.n, ∑ ch ∈ Finset.range nc, G c.val ch * (out' c ch).getD low := by
  obtain ⟨pairs, hnd, hmem, hfw, hbw⟩ := local_pairs op dev eps cin cout radius radii hr hok _ _ ho
  refine ⟨_, hbw _ _, ?_⟩
  have e : ∀ (h : Fin cin.n → ℕ → ℝ) (o : Fin cout.n → ℕ → Option ℝ), localPool op dev eps cin cout radius h = .ok o →
      ∑ c : Fin cout.n, ∑ ch ∈ Finset.range nc, G c.val ch * (o c ch).getD low =
      ∑ ch ∈ Finset.range nc, poolLoss op cout.n low (fun j : Fin pairs.length => (pairs.get j).2.val) (fun c => G c ch)
        (fun j => h (pairs.get j).1 ch) := by
    intro h o hh
    rw [Finset.sum_comm]
    refine Finset.sum_congr rfl fun ch _ => ?_
    have := (Except.ok.inj (hh.symm.trans (hfw h)))
    rw [this]
    exact Fin.sum_univ_eq_sum_range (fun s => G s ch * (op.apply (fun j : Fin pairs.length => h (pairs.get j).1 ch)
      (fun j => (pairs.get j).2.val) s).getD low) cout.n
  rw [e f out ho, e f' out' ho', Finset.sum_comm, ← Finset.sum_add_distrib]
  refine Finset.sum_le_sum fun ch _ => ?_
  rw [localPoolGrad_pairing op pairs f G (fun p => f' p ch - f p ch) ch]
  exact pool_subgradient op cout.n low _ (fun j => (pairs.get j).2.isLt) (fun c => G c ch) (fun c => hG c ch)
    (fun j => f (pairs.get j).1 ch) (fun j => f' (pairs.get j).1 ch)

/-- **C157, nothing is lost**: in every channel the gradients of the features add up to the upstream gradients of the
centres that have neighbours. -/
theorem C157_local_sum (op : PoolOp) (dev : Device) (eps : ℝ) (cin cout : Cloud (Fin (k + 2) → ℝ)) (radius : RadiusArg ℝ)
    (radii : Fin (k + 2) → ℝ) (hr : poolRadius (k + 2) radius = .ok radii) (hok : PoolOk cin radii eps)
    (G : ℕ → ℕ → ℝ) (f : Fin cin.n → ℕ → ℝ) (out : Fin cout.n → ℕ → Option ℝ)
    (ho : localPool op dev eps cin cout radius f = .ok out) :
    ∃ g, localPoolBackward op dev eps cin cout radius f G = .ok g ∧ ∀ ch,
      ∑ p, g p ch = ∑ c : Fin cout.n, if (nbrs cin cout (radii 0) c).Nonempty then G c.val ch else 0 := by
  obtain ⟨pairs, hnd, hmem, hfw, hbw⟩ := local_pairs op dev eps cin cout radius radii hr hok _ _ ho
  refine ⟨_, hbw _ _, fun ch => ?_⟩
  have h := localPoolGrad_pairing op pairs f G (fun _ => 1) ch
  simp only [mul_one] at h
  rw [h, pool_grad_sum op cout.n _ (fun j => (pairs.get j).2.isLt),
    ← Fin.sum_univ_eq_sum_range (fun s => if (segRows (fun j : Fin pairs.length => (pairs.get j).2.val) s).Nonempty then
      G s ch else 0) cout.n]
  refine Finset.sum_congr rfl fun c _ => ?_
  have hiff : (segRows (fun j : Fin pairs.length => (pairs.get j).2.val) c.val).Nonempty ↔ (nbrs cin cout (radii 0) c).Nonempty := by
    constructor
    · rintro ⟨j, hj⟩
      have hjc' := (mem_segRows (ids := fun j : Fin pairs.length => (pairs.get j).2.val)).mp hj
      have hjc : (pairs.get j).2 = c := Fin.val_injective hjc'
      refine ⟨(pairs.get j).1, (hmem _ _).1 ?_⟩
      rw [← hjc]
      exact List.get_mem _ j
    · rintro ⟨p, hp⟩
      obtain ⟨j, hj⟩ := List.mem_iff_get.mp ((hmem p c).2 hp)
      refine ⟨j, (mem_segRows (ids := fun j : Fin pairs.length => (pairs.get j).2.val)).mpr ?_⟩
      show (pairs.get j).2.val = c.val
      rw [hj]
  simp only [hiff]

/-- **C157, global pooling, nothing is lost.** -/
theorem C157_global_sum (op : PoolOp) {α : Type*} (c : Cloud α) (hb : ∀ i, c.batch i < c.B) (G : ℕ → ℕ → ℝ)
    (f : Fin c.n → ℕ → ℝ) (ch : ℕ) :
    ∑ i, globalPoolGrad op c f G i ch = ∑ b : Fin c.B, if ∃ i, c.batch i = b.val then G b.val ch else 0 := by
  unfold globalPoolGrad
  rw [pool_grad_sum op c.B _ hb, ← Fin.sum_univ_eq_sum_range (fun s => if (segRows c.batch s).Nonempty then
      G s ch else 0) c.B]
  refine Finset.sum_congr rfl fun b _ => ?_
  have hiff : (segRows c.batch b.val).Nonempty ↔ ∃ i, c.batch i = b.val :=
    ⟨fun ⟨i, hi⟩ => ⟨i, mem_segRows.mp hi⟩, fun ⟨i, hi⟩ => ⟨i, mem_segRows.mpr hi⟩⟩
  simp only [hiff]

/-- **C157, global pooling, ties.** -/
theorem C157_global_subgradient (op : PoolOp) {α : Type*} (c : Cloud α) (hb : ∀ i, c.batch i < c.B) (low : ℝ) (nc : ℕ)
    (G : ℕ → ℕ → ℝ) (hG : ∀ b ch, 0 ≤ G b ch) (f f' : Fin c.n → ℕ → ℝ) :
    ∑ b : Fin c.B, ∑ ch ∈ Finset.range nc, G b.val ch * (globalPool op c f b ch).getD low +
        ∑ i, ∑ ch ∈ Finset.range nc, globalPoolGrad op c f G i ch * (f' i ch - f i ch) ≤
      ∑ b : Fin c.B, ∑ ch ∈ Finset.range nc, G b.val ch * (globalPool op c f' b ch).getD low := by
  have e : ∀ h : Fin c.n → ℕ → ℝ, ∑ b : Fin c.B, ∑ ch ∈ Finset.range nc, G b.val ch * (globalPool op c h b ch).getD low =
      ∑ ch ∈ Finset.range nc, poolLoss op c.B low c.batch (fun b => G b ch) (fun i => h i ch) := by
    intro h
    rw [Finset.sum_comm]
    refine Finset.sum_congr rfl fun ch _ => ?_
    exact Fin.sum_univ_eq_sum_range (fun s => G s ch * (op.apply (fun i => h i ch) c.batch s).getD low) c.B
  rw [e, e, Finset.sum_comm, ← Finset.sum_add_distrib]
  refine Finset.sum_le_sum fun ch _ => ?_
  exact pool_subgradient op c.B low c.batch hb (fun b => G b ch) (fun b => hG b ch) (fun i => f i ch) (fun i => f' i ch)

/-- **C157 fails at ties**: two points with equal features, of which one grows, in one batch element: the maximum is not
differentiable. -/
theorem C157_ties_false : ¬ ∀ (c : Cloud (Fin 2 → ℝ)) (f : ℝ → Fin c.n → ℕ → ℝ) (f' : Fin c.n → ℕ → ℝ) (G : ℕ → ℕ → ℝ) (low : ℝ),
    (∀ i, c.batch i < c.B) → (∀ i ch, HasDerivAt (fun θ => f θ i ch) (f' i ch) 0) →
    HasDerivAt (fun θ => ∑ b : Fin c.B, ∑ ch ∈ Finset.range 1, G b.val ch * (globalPool .max c (f θ) b ch).getD low)
      (∑ i, ∑ ch ∈ Finset.range 1, globalPoolGrad .max c (f 0) G i ch * f' i ch) 0 := by
  intro H
  have h := H ⟨2, fun _ _ => 0, fun _ => 0, 1⟩ (fun θ i _ => if i = 0 then θ else 0) (fun i _ => if i = 0 then 1 else 0)
    (fun _ _ => 1) 0 (fun _ => Nat.zero_lt_one) (fun i ch => by
      by_cases hi : i = 0
      · simp only [hi, if_true]; exact hasDerivAt_id 0
      · simp only [if_neg hi]; exact hasDerivAt_const _ _)
  have e : (fun θ : ℝ => ∑ b : Fin 1, ∑ ch ∈ Finset.range 1, (1 : ℝ) * (globalPool .max
      (⟨2, fun _ _ => 0, fun _ => 0, 1⟩ : Cloud (Fin 2 → ℝ)) (fun i _ => if i = 0 then θ else 0) b ch).getD 0) =
      fun θ => max θ 0 := by
    funext θ
    rw [Fin.sum_univ_one, Finset.sum_range_one, one_mul]
    have hm := C43_global_max (⟨2, fun _ _ => 0, fun _ => 0, 1⟩ : Cloud (Fin 2 → ℝ)) (fun i _ => if i = 0 then θ else 0) (0 : Fin 1) 0
    have hs : globalPool .max (⟨2, fun _ _ => 0, fun _ => 0, 1⟩ : Cloud (Fin 2 → ℝ)) (fun i _ => if i = 0 then θ else 0) (0 : Fin 1) 0 =
        some (max θ 0) := by
      refine hm.unique ⟨?_, ?_⟩
      · rcases le_total θ 0 with h0 | h0
        · exact ⟨(1 : Fin 2), by simp, by simp [h0]⟩
        · exact ⟨(0 : Fin 2), by simp, by simp [h0]⟩
      · intro p _
        dsimp only
        by_cases hp : p = 0
        · rw [if_pos hp]; exact le_max_left _ _
        · rw [if_neg hp]; exact le_max_right _ _
    rw [hs]; rfl
  have hd : DifferentiableAt ℝ (fun θ : ℝ => max θ 0) 0 := by
    rw [← e]; exact h.differentiableAt
  have h1 := hd.hasDerivAt
  have hr : HasDerivWithinAt (fun θ : ℝ => max θ 0) 1 (Set.Ici 0) 0 :=
    (hasDerivAt_id (0 : ℝ)).hasDerivWithinAt.congr (fun t ht => max_eq_left ht) (by simp)
  have hl : HasDerivWithinAt (fun θ : ℝ => max θ 0) 0 (Set.Iic 0) 0 :=
    (hasDerivAt_const (0 : ℝ) (0 : ℝ)).hasDerivWithinAt.congr (fun t ht => max_eq_right ht) (by simp)
  have e1 := (uniqueDiffWithinAt_Ici (0 : ℝ)).eq_deriv _ h1.hasDerivWithinAt hr
  have e2 := (uniqueDiffWithinAt_Iic (0 : ℝ)).eq_deriv _ h1.hasDerivWithinAt hl
  rw [e1] at e2
  norm_num at e2

/-- The conditions of `C157_global_partial` can be met with ties: two entries with the same, constant feature. -/
example : TiesMove ![(1 : ℝ), 1, 0] ![0, 0, 5] (fun _ => 0) (fun _ => 1) := by
  intro i j _ _ hi hj
  have h0 := hi 0 rfl
  have h0' := hj 0 rfl
  fin_cases i <;> fin_cases j <;> first | rfl | (exfalso; norm_num at h0; done) | (exfalso; norm_num at h0'; done)

end PC
