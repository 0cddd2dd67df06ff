import Verif.Props.Repro

/-!
# C128: rounding errors of the projection and its gradients
-/

set_option linter.unusedVariables false
set_option linter.unusedSectionVars false

namespace PC
open Rounded

/-- `r` approximates `e`, `|e| ≤ E`, with an error of at most `(γ - 1) * E`. -/
structure NearTo (γ r e E : ℝ) : Prop where
  le : |e| ≤ E
  err : |r - e| ≤ (γ - 1) * E

theorem NearTo.nonneg {γ r e E : ℝ} (h : NearTo γ r e E) : 0 ≤ E := (abs_nonneg e).trans h.le

theorem NearTo.mono {γ γ' r e E : ℝ} (h : NearTo γ r e E) (hγ : γ ≤ γ') : NearTo γ' r e E :=
  ⟨h.le, h.err.trans (mul_le_mul_of_nonneg_right (by linarith) h.nonneg)⟩

theorem NearTo.abs_le {γ r e E : ℝ} (h : NearTo γ r e E) : |r| ≤ γ * E := by
  have h1 := abs_add_le e (r - e)
  rw [add_sub_cancel] at h1
  have := h.le
  have := h.err
  linarith

section
variable {fl : ℝ → ℝ} {u : ℝ} (hu : 0 ≤ u) (hfl : ∀ x, |fl x - x| ≤ u * |x|)
include hu hfl

theorem NearTo.add {γ r e E r' e' E' : ℝ} (h : NearTo γ r e E) (h' : NearTo γ r' e' E') :
    NearTo ((1 + u) * γ) (fl (r + r')) (e + e') (E + E') := by
  refine ⟨(abs_add_le _ _).trans (add_le_add h.le h'.le), ?_⟩
  have h1 : |r + r'| ≤ γ * (E + E') := by
    have := abs_add_le r r'
    have := h.abs_le
    have := h'.abs_le
    linarith
  have h2 := hfl (r + r')
  have h3 : u * |r + r'| ≤ u * (γ * (E + E')) := mul_le_mul_of_nonneg_left h1 hu
  have h4 := h.err
  have h5 := h'.err
  have e1 : fl (r + r') - (e + e') = (fl (r + r') - (r + r')) + ((r - e) + (r' - e')) := by ring
  rw [e1]
  have h6 := abs_add_le (fl (r + r') - (r + r')) ((r - e) + (r' - e'))
  have h7 := abs_add_le (r - e) (r' - e')
  have e2 : ((1 + u) * γ - 1) * (E + E') = u * (γ * (E + E')) + (γ - 1) * E + (γ - 1) * E' := by ring
  linarith

theorem NearTo.mul (a b : ℝ) : NearTo (1 + u) (fl (a * b)) (a * b) |a * b| := by
  refine ⟨le_refl _, ?_⟩
  rw [add_sub_cancel_left]
  exact hfl _

theorem near_fold {ι : Type*} {γ : ℝ} (hγ : 1 ≤ γ) (l : List ι) (v : ι → Rounded fl) (e E : ι → ℝ)
    (hv : ∀ i ∈ l, NearTo γ (v i).val (e i) (E i)) :
    ∀ (k : ℕ) (a : Rounded fl) (ea Ea : ℝ), NearTo ((1 + u) ^ k * γ) a.val ea Ea →
      NearTo ((1 + u) ^ (k + l.length) * γ) (l.foldl (fun a i => a + v i) a).val (ea + (l.map e).sum) (Ea + (l.map E).sum) := by
  induction l with
  | nil => intro k a ea Ea h; simpa using h
  | cons x l ih =>
    intro k a ea Ea h
    have h1 : (1 : ℝ) ≤ (1 + u) ^ k := one_le_pow₀ (by linarith)
    have hx := (hv x List.mem_cons_self).mono (γ' := (1 + u) ^ k * γ) (by nlinarith)
    have h2 := NearTo.add hu hfl h hx
    have h3 : NearTo ((1 + u) ^ (k + 1) * γ) (a + v x).val (ea + e x) (Ea + E x) := by
      have e1 : (1 + u) ^ (k + 1) * γ = (1 + u) * ((1 + u) ^ k * γ) := by ring
      rw [e1]
      exact h2
    have h4 := ih (fun i hi => hv i (List.mem_cons_of_mem _ hi)) (k + 1) _ _ _ h3
    rw [List.foldl_cons, List.map_cons, List.sum_cons, List.map_cons, List.sum_cons, List.length_cons,
      show k + (l.length + 1) = k + 1 + l.length by omega, ← add_assoc, ← add_assoc]
    exact h4

theorem near_fold_zero {ι : Type*} {γ : ℝ} (hγ : 1 ≤ γ) (l : List ι) (v : ι → Rounded fl) (e E : ι → ℝ)
    (hv : ∀ i ∈ l, NearTo γ (v i).val (e i) (E i)) :
    NearTo ((1 + u) ^ l.length * γ) (l.foldl (fun a i => a + v i) 0).val (l.map e).sum (l.map E).sum := by
  have := near_fold hu hfl hγ l v e E hv 0 0 0 0 ⟨by simp, by
    show |(0 : ℝ) - 0| ≤ _
    simp⟩
  simpa using this

/-- The value computed by the kernel. -/
theorem projVal_near (I : ProjIn (Rounded fl)) {c : ProjCfg} (h : CfgOk c) (it f t : ℕ) (ht : t < c.K) :
    NearTo ((1 + u) ^ (I.passes c it + c.G + 1)) (projValA I c it f t).val
      ((rangeIdx I.ends (I.sample c it)).map (fun j =>
        (I.feats ((I.nb j).1 * I.nf + I.off c it + f)).val * (I.basis (j * c.K + t)).val)).sum
      ((rangeIdx I.ends (I.sample c it)).map (fun j =>
        |(I.feats ((I.nb j).1 * I.nf + I.off c it + f)).val * (I.basis (j * c.K + t)).val|)).sum := by
  set P : ℕ → ℝ := fun j => (I.feats ((I.nb j).1 * I.nf + I.off c it + f)).val * (I.basis (j * c.K + t)).val with hP
  have hterm : ∀ g k, NearTo (1 + u) (ftV I c it k g f * wtV I c it k (g * c.K + t)).val
      (if g + k * c.G + I.lo c it < I.hi c it then P (g + k * c.G + I.lo c it) else 0)
      (if g + k * c.G + I.lo c it < I.hi c it then |P (g + k * c.G + I.lo c it)| else 0) := by
    intro g k
    have hp : I.pos c it k (g * c.K + t) = g + k * c.G + I.lo c it := by
      unfold ProjIn.pos
      rw [h.gid_mk ht]
    unfold ftV wtV
    rw [hp, h.lid_mk ht]
    by_cases hlt : g + k * c.G + I.lo c it < I.hi c it
    · simp only [if_pos hlt]
      exact NearTo.mul hu hfl _ _
    · simp only [if_neg hlt]
      have := NearTo.mul hu hfl 0 0
      have e0 : (0 : ℝ) * 0 = 0 := mul_zero 0
      have e1 : ((0 : Rounded fl) * 0).val = fl ((0 : ℝ) * 0) := rfl
      rw [e1]
      rw [e0, abs_zero] at this
      rw [e0]
      exact this
  have h1u : (1 : ℝ) ≤ 1 + u := by linarith
  have hin : ∀ g, NearTo ((1 + u) ^ (List.range (I.passes c it)).length * (1 + u))
      ((List.range (I.passes c it)).foldl (fun a k => a + ftV I c it k g f * wtV I c it k (g * c.K + t)) 0).val
      ((List.range (I.passes c it)).map (fun k =>
        if g + k * c.G + I.lo c it < I.hi c it then P (g + k * c.G + I.lo c it) else 0)).sum
      ((List.range (I.passes c it)).map (fun k =>
        if g + k * c.G + I.lo c it < I.hi c it then |P (g + k * c.G + I.lo c it)| else 0)).sum :=
    fun g => near_fold_zero hu hfl h1u _ _ _ _ (fun k _ => hterm g k)
  have hout := near_fold_zero hu hfl (γ := (1 + u) ^ (List.range (I.passes c it)).length * (1 + u))
    (by have := one_le_pow₀ h1u (n := (List.range (I.passes c it)).length); nlinarith)
    (List.range c.G) _ _ _ (fun g _ => hin g)
  rw [List.length_range, List.length_range] at hout
  have e1 : (1 + u) ^ c.G * ((1 + u) ^ I.passes c it * (1 + u)) = (1 + u) ^ (I.passes c it + c.G + 1) := by ring
  rw [e1] at hout
  have g1 := group_sum I.exact h it (f := f) ht P
  have g2 := group_sum I.exact h it (f := f) ht (fun j => |P j|)
  have e2 : ∀ (n : ℕ) (q : ℕ → ℝ), ((List.range n).map q).sum = ∑ x ∈ Finset.range n, q x := fun n q => rfl
  simp only [e2] at hout
  have hg1 : ((rangeIdx I.ends (I.sample c it)).map P).sum = ∑ x ∈ Finset.range c.G, ∑ k ∈ Finset.range (I.passes c it),
      (if x + k * c.G + I.lo c it < I.hi c it then P (x + k * c.G + I.lo c it) else 0) := g1.symm
  have hg2 : ((rangeIdx I.ends (I.sample c it)).map (fun j => |P j|)).sum = ∑ x ∈ Finset.range c.G,
      ∑ k ∈ Finset.range (I.passes c it),
      (if x + k * c.G + I.lo c it < I.hi c it then |P (x + k * c.G + I.lo c it)| else 0) := g2.symm
  rw [hg1, hg2]
  exact hout

/-- **C128, projection.** If every addition and multiplication is rounded with relative error at most `u`: the result of
every run of the projection differs from the exact sum over the neighbours by at most
`((1+u)^(n/G + G + 2) - 1) * ∑ |feature * basis|`, where `n` is the number of neighbours and `G = 64/K`. -/
theorem C128_projection (I : ProjIn (Rounded fl)) (hK : projBasisOk I.K = true) (hf : projFeatOk I.nf = true) (W : ℕ)
    (hW : 0 < W) (out : ℕ → Rounded fl) (h : ProjFwd I W out) (s f k : ℕ) (hs : s < I.S) (hfn : f < I.nf) (hk : k < I.K) :
    |(out ((s * I.nf + f) * I.K + k)).val - ((rangeIdx I.ends s).map (fun j =>
        (I.feats ((I.nb j).1 * I.nf + f)).val * (I.basis (j * I.K + k)).val)).sum| ≤
      ((1 + u) ^ ((rangeIdx I.ends s).length / (64 / I.K) + 64 / I.K + 2) - 1) *
        ((rangeIdx I.ends s).map (fun j =>
          |(I.feats ((I.nb j).1 * I.nf + f)).val * (I.basis (j * I.K + k)).val|)).sum := by
  obtain ⟨hc, hd⟩ := projCfg_ok I hK hf
  obtain ⟨it, f', h1, h2, h3⟩ := projFwd_valA I hK hf W hW out h s f k hs hfn hk
  have := projVal_near hu hfl I hc it f' k hk
  rw [← h3, h1] at this
  have he : I.passes (projCfg I) it + (projCfg I).G + 1 =
      (rangeIdx I.ends s).length / (64 / I.K) + 64 / I.K + 2 := by
    have hG : (projCfg I).G = 64 / I.K := rfl
    have hp : I.passes (projCfg I) it = (I.hi (projCfg I) it - I.lo (projCfg I) it) / (projCfg I).G + 1 := hc.passes_eq ..
    have hl : (rangeIdx I.ends s).length = I.hi (projCfg I) it - I.lo (projCfg I) it := by
      unfold rangeIdx ProjIn.hi ProjIn.lo
      rw [h1, List.length_map, List.length_range]
    rw [hp, hl, hG]
    omega
  rw [he] at this
  have hcK : (projCfg I).K = I.K := rfl
  simp only [hcK, Nat.add_assoc, h2] at this
  simpa only [Nat.add_assoc] using this.err

/-- The result of the search followed by the projection: whatever the schedules, and so whatever the order of the
neighbours, it differs from the exact sum over the found points by at most the bound. -/
theorem C128_layer (S R Wc Ws Wn W nf K : ℕ) (hWc : 0 < Wc) (hWs : 0 < Ws) (hWn : 0 < Wn) (hW : 0 < W) (hR : 0 < R)
    (hone : S ≤ 512 + Ws * 64) (hK : projBasisOk K = true) (hf : projFeatOk nf = true) (rgs : List (ℕ → ℕ × ℕ))
    (hit : ℕ → ℕ → Bool) (total : ℕ) (res : StoreMem) (basis : ℕ → ℕ → ℕ → Rounded fl) (feats : ℕ → Rounded fl)
    (out : ℕ → Rounded fl) (hfind : FindRun S R Wc Ws Wn rgs hit total res)
    (hproj : ProjFwd (projAfterSearch S nf K res basis feats) W out) (s f k : ℕ) (hs : s < S) (hfn : f < nf) (hk : k < K) :
    |(out ((s * nf + f) * K + k)).val - ((allFinds R rgs hit s).map (fun p =>
        (feats (p * nf + f)).val * (basis p s k).val)).sum| ≤
      ((1 + u) ^ ((allFinds R rgs hit s).length / (64 / K) + 64 / K + 2) - 1) *
        ((allFinds R rgs hit s).map (fun p => |(feats (p * nf + f)).val * (basis p s k).val|)).sum := by
  obtain ⟨-, h2, -, h4⟩ := findRun_spec S R Wc Ws Wn hWc hWs hWn hR (by omega) hone rgs hit total res hfind
  have hb := C128_projection hu hfl (projAfterSearch S nf K res basis feats) hK hf W hW out hproj s f k hs hfn hk
  have hidx : rangeIdx (projAfterSearch S nf K res basis feats).ends s =
      List.range' (∑ x ∈ Finset.range s, (allFinds R rgs hit x).length) (allFinds R rgs hit s).length := by
    show rangeIdx res.cnt s = _
    unfold rangeIdx
    have hst : rangeStart res.cnt s = ∑ x ∈ Finset.range s, (allFinds R rgs hit x).length := by
      unfold rangeStart
      split_ifs with h0
      · rw [h2 (s - 1) (by omega), Nat.sub_add_cancel h0]
      · obtain rfl : s = 0 := by omega
        rfl
    rw [hst, h2 s hs, Finset.sum_range_succ, Nat.add_sub_cancel_left, List.range'_eq_map_range]
  have hperm : ∀ F : ℕ → ℕ → ℝ, (((List.range' (∑ x ∈ Finset.range s, (allFinds R rgs hit x).length)
      (allFinds R rgs hit s).length)).map (fun j => F (res.out j).1 (res.out j).2)).sum =
      ((allFinds R rgs hit s).map (fun p => F p s)).sum := by
    intro F
    have := ((h4 s hs).map (fun q : ℕ × ℕ => F q.1 q.2)).sum_eq
    rw [List.map_map, List.map_map] at this
    exact this
  have hterm : ∀ j, ((projAfterSearch S nf K res basis feats).feats
      (((projAfterSearch S nf K res basis feats).nb j).1 * nf + f)).val *
      ((projAfterSearch S nf K res basis feats).basis (j * K + k)).val =
      (feats ((res.out j).1 * nf + f)).val * (basis (res.out j).1 (res.out j).2 k).val := by
    intro j
    show (feats ((res.out j).1 * nf + f)).val * (basis (res.out ((j * K + k) / K)).1 (res.out ((j * K + k) / K)).2
      ((j * K + k) % K)).val = _
    rw [Nat.add_comm (j * K), Nat.add_mul_div_right _ _ (by omega), Nat.div_eq_of_lt hk, Nat.zero_add,
      Nat.add_mul_mod_self_right, Nat.mod_eq_of_lt hk]
  rw [hidx, List.length_range'] at hb
  change |(out ((s * nf + f) * K + k)).val - (List.map (fun j => ((projAfterSearch S nf K res basis feats).feats
      (((projAfterSearch S nf K res basis feats).nb j).1 * nf + f)).val *
      ((projAfterSearch S nf K res basis feats).basis (j * K + k)).val) _).sum| ≤
      ((1 + u) ^ (_ / (64 / K) + 64 / K + 2) - 1) * (List.map (fun j => |((projAfterSearch S nf K res basis feats).feats
      (((projAfterSearch S nf K res basis feats).nb j).1 * nf + f)).val *
      ((projAfterSearch S nf K res basis feats).basis (j * K + k)).val|) _).sum at hb
  simp only [hterm] at hb
  rw [hperm (fun p s => (feats (p * nf + f)).val * (basis p s k).val),
    hperm (fun p s => |(feats (p * nf + f)).val * (basis p s k).val|)] at hb
  exact hb

/-- Two runs on the same inputs agree up to twice the bound. -/
theorem C128_runs_agree (S R Wc Ws Wn W nf K : ℕ) (hWc : 0 < Wc) (hWs : 0 < Ws) (hWn : 0 < Wn) (hW : 0 < W) (hR : 0 < R)
    (hone : S ≤ 512 + Ws * 64) (hK : projBasisOk K = true) (hf : projFeatOk nf = true) (rgs : List (ℕ → ℕ × ℕ))
    (hit : ℕ → ℕ → Bool) (total total' : ℕ) (res res' : StoreMem) (basis : ℕ → ℕ → ℕ → Rounded fl)
    (feats : ℕ → Rounded fl) (out out' : ℕ → Rounded fl) (hfind : FindRun S R Wc Ws Wn rgs hit total res)
    (hfind' : FindRun S R Wc Ws Wn rgs hit total' res') (hproj : ProjFwd (projAfterSearch S nf K res basis feats) W out)
    (hproj' : ProjFwd (projAfterSearch S nf K res' basis feats) W out') (s f k : ℕ) (hs : s < S) (hfn : f < nf)
    (hk : k < K) :
    |(out ((s * nf + f) * K + k)).val - (out' ((s * nf + f) * K + k)).val| ≤
      2 * (((1 + u) ^ ((allFinds R rgs hit s).length / (64 / K) + 64 / K + 2) - 1) *
        ((allFinds R rgs hit s).map (fun p => |(feats (p * nf + f)).val * (basis p s k).val|)).sum) := by
  have h1 := C128_layer hu hfl S R Wc Ws Wn W nf K hWc hWs hWn hW hR hone hK hf rgs hit total res basis feats out hfind
    hproj s f k hs hfn hk
  have h2 := C128_layer hu hfl S R Wc Ws Wn W nf K hWc hWs hWn hW hR hone hK hf rgs hit total' res' basis feats out' hfind'
    hproj' s f k hs hfn hk
  rw [abs_sub_comm] at h2
  have := abs_sub_le (out ((s * nf + f) * K + k)).val ((allFinds R rgs hit s).map (fun p =>
        (feats (p * nf + f)).val * (basis p s k).val)).sum (out' ((s * nf + f) * K + k)).val
  linarith

/-! ### gradients -/

theorem kahan_rounded (l : List (Rounded fl)) : (kahan l : Rounded fl × Rounded fl) = kahanFl (K := ℝ) fl l := by
  unfold kahan kahanFl
  rfl

/-- The compensated sum of rounded products. -/
theorem kahan_near {ι : Type*} (hu32 : u ≤ 1 / 32) (l : List ι) (hl : (l.length : ℝ) * u ≤ 1) (a b : ι → Rounded fl) :
    NearTo ((1 + (7 * u + 14 * l.length * u ^ 2)) * (1 + u)) (kahan (l.map (fun i => a i * b i))).1.val
      (l.map (fun i => (a i).val * (b i).val)).sum (l.map (fun i => |(a i).val * (b i).val|)).sum := by
  set κ := 7 * u + 14 * l.length * u ^ 2 with hκ
  have hκ0 : 0 ≤ κ := by positivity
  have h1 := C64_rounding fl u hu hu32 hfl (l.map (fun i => fl ((a i).val * (b i).val))) (by rwa [List.length_map])
  rw [List.length_map, ← hκ, List.map_map] at h1
  have h2 : |(l.map (fun i => fl ((a i).val * (b i).val))).sum - (l.map (fun i => (a i).val * (b i).val)).sum| ≤
      u * (l.map (fun i => |(a i).val * (b i).val|)).sum ∧
      (l.map ((fun x => |x|) ∘ fun i => fl ((a i).val * (b i).val))).sum ≤
        (1 + u) * (l.map (fun i => |(a i).val * (b i).val|)).sum ∧
      |(l.map (fun i => (a i).val * (b i).val)).sum| ≤ (l.map (fun i => |(a i).val * (b i).val|)).sum := by
    clear h1 hκ0 hκ hl
    clear κ
    induction l with
    | nil => simp
    | cons x l ih =>
      obtain ⟨i1, i2, i3⟩ := ih
      simp only [List.map_cons, List.sum_cons, Function.comp]
      have hx := hfl ((a x).val * (b x).val)
      refine ⟨?_, ?_, ?_⟩
      · have e1 : fl ((a x).val * (b x).val) + (l.map (fun i => fl ((a i).val * (b i).val))).sum -
            ((a x).val * (b x).val + (l.map (fun i => (a i).val * (b i).val)).sum) =
            (fl ((a x).val * (b x).val) - (a x).val * (b x).val) +
            ((l.map (fun i => fl ((a i).val * (b i).val))).sum - (l.map (fun i => (a i).val * (b i).val)).sum) := by ring
        rw [e1, mul_add]
        exact (abs_add_le _ _).trans (add_le_add hx i1)
      · rw [mul_add]
        refine add_le_add ?_ i2
        have := abs_add_le ((a x).val * (b x).val) (fl ((a x).val * (b x).val) - (a x).val * (b x).val)
        rw [add_sub_cancel] at this
        linarith
      · exact (abs_add_le _ _).trans (add_le_add (le_refl _) i3)
  obtain ⟨i1, i2, i3⟩ := h2
  refine ⟨i3, ?_⟩
  have e0 : (kahan (l.map (fun i => a i * b i))).1.val = (kahanFl fl (l.map (fun i => fl ((a i).val * (b i).val)))).1 := by
    rw [kahan_rounded hu hfl]
    rfl
  rw [e0]
  set T := (l.map (fun i => |(a i).val * (b i).val|)).sum with hT
  have h3 := mul_le_mul_of_nonneg_left i2 hκ0
  have h4 := abs_sub_le (kahanFl fl (l.map (fun i => fl ((a i).val * (b i).val)))).1
    (l.map (fun i => fl ((a i).val * (b i).val))).sum (l.map (fun i => (a i).val * (b i).val)).sum
  have e1 : ((1 + κ) * (1 + u) - 1) * T = κ * ((1 + u) * T) + u * T := by ring
  rw [e1]
  linarith

end
/-! #### the additions, numbered -/

theorem perm_map_exists {A B : Type*} (F : A → B) :
    ∀ (tr : List B) (T : List A), tr.Perm (T.map F) → ∃ T' : List A, T'.Perm T ∧ tr = T'.map F := by
  intro tr
  induction tr with
  | nil =>
    intro T h
    have : T = [] := by simpa using h.symm.eq_nil
    exact ⟨[], by rw [this], rfl⟩
  | cons b tr ih =>
    intro T h
    obtain ⟨x, hx, rfl⟩ := List.mem_map.mp (h.mem_iff.mp List.mem_cons_self)
    obtain ⟨T1, T2, rfl⟩ := List.append_of_mem hx
    have h' : tr.Perm ((T1 ++ T2).map F) := by
      rw [List.map_append, List.map_cons] at h
      have := h.trans (List.perm_middle)
      rw [List.map_append]
      exact (List.perm_cons _).mp this
    obtain ⟨T', h1, h2⟩ := ih _ h'
    exact ⟨x :: T', (h1.cons x).trans List.perm_middle.symm, by rw [h2]; rfl⟩

section
variable {α : Type*} [Zero α] [Add α] [Sub α] [Mul α]

/-- Iteration, position of the pair, local thread, and whether the addition is to the gradients of the features. -/
def gradIdx (I : ProjIn α) (c : ProjCfg) : List (ℕ × ℕ × ℕ × Bool) :=
  (List.range (I.total c)).flatMap (fun it => (rangeIdx I.ends (I.sample c it)).flatMap (fun j =>
    (List.range c.K).flatMap (fun l => (it, j, l, false) :: if l < c.gf then [(it, j, l, true)] else [])))

def gradAddr (I : ProjIn α) (c : ProjCfg) : ℕ × ℕ × ℕ × Bool → ℕ ⊕ ℕ
  | (_, j, l, false) => Sum.inl (j * c.K + l)
  | (it, j, l, true) => Sum.inr ((I.nb j).1 * I.nf + I.off c it + l)

def gradVal (I : ProjIn α) (c : ProjCfg) (g : ℕ → α) : ℕ × ℕ × ℕ × Bool → α
  | (it, j, l, false) => (kahan ((List.range c.gf).map (fun f =>
      g (I.sample c it * I.nf * c.K + I.off c it * c.K + (f * c.K + l)) *
      I.feats ((I.nb j).1 * I.nf + I.off c it + f)))).1
  | (it, j, l, true) => (kahan ((List.range c.K).map (fun kk =>
      g (I.sample c it * I.nf * c.K + I.off c it * c.K + (l * c.K + kk)) * I.basis (j * c.K + kk)))).1

theorem gradIdx_map (I : ProjIn α) (c : ProjCfg) (g : ℕ → α) :
    (List.range (I.total c)).flatMap (iterAddsA I c g) =
      (gradIdx I c).map (fun i => (gradAddr I c i, gradVal I c g i)) := by
  unfold gradIdx iterAddsA gradAddsA
  simp only [List.map_flatMap, List.map_cons, apply_ite (List.map _), List.map_nil, gradAddr, gradVal]

theorem projGrad_addsA (I : ProjIn α) (hK : projBasisOk I.K = true) (hf : projFeatOk I.nf = true) (g : ℕ → α)
    (W : ℕ) (hW : 0 < W) (out : ℕ ⊕ ℕ → α) (ho : ProjGrad I g W out) :
    ∃ idx : List (ℕ × ℕ × ℕ × Bool), idx.Perm (gradIdx I (projCfg I)) ∧ ∀ a,
      out a = (idx.filter (fun i => gradAddr I (projCfg I) i = a)).foldl (fun x i => x + gradVal I (projCfg I) g i) 0 := by
  obtain ⟨hc, hd⟩ := projCfg_ok I hK hf
  obtain ⟨effs, tr, hlen, hb, hi, rfl⟩ := ho
  have hperm : tr.Perm ((List.range (I.total (projCfg I))).flatMap (iterAddsA I (projCfg I) g)) := by
    rcases Nat.eq_zero_or_pos (I.total (projCfg I)) with h0 | h0
    · rw [h0] at hlen ⊢
      have he : effs = [] := by
        rw [← List.length_eq_zero_iff, hlen]
        unfold launchBlocks
        rw [if_pos hW]
      subst he
      exact hi.perm
    · refine blocks_run (launchBlocks_pos hW h0) _ effs hlen ?_ hi
      intro b e he
      obtain ⟨m, p, hp, rfl⟩ := hb b e he
      rw [← hlen]
      exact iters_run _ _ (fun it p hp m => gradPhases_runA I hc g it p hp m) _ p hp m
  rw [gradIdx_map] at hperm
  obtain ⟨idx, h1, rfl⟩ := perm_map_exists _ _ _ hperm
  refine ⟨idx, h1, fun a => ?_⟩
  rw [runAtomics_fold, List.filter_map, List.map_map, List.foldl_map]
  rfl

/-- How often something is added to an address: for the gradients of basis values the number of feature groups for
each sample which has the pair, for the gradients of features the number of pairs with the point. -/
def gradUses (I : ProjIn α) : ℕ ⊕ ℕ → ℕ
  | .inl i => I.nf / groupFeat I.nf * ∑ s ∈ Finset.range I.S, (rangeIdx I.ends s).countP (fun j => j = i / I.K)
  | .inr i => ∑ s ∈ Finset.range I.S, (rangeIdx I.ends s).countP (fun j => (I.nb j).1 = i / I.nf)

theorem sum_ind_le (n x : ℕ) (p : Prop) [Decidable p] (q : ℕ → Bool) (h : ∀ l < n, q l = true → l = x ∧ p) :
    ((List.range n).map (fun l => if q l then 1 else 0)).sum ≤ if p then 1 else 0 := by
  have e : ((List.range n).map (fun l => if q l then 1 else 0)).sum = ∑ l ∈ Finset.range n, if q l then 1 else 0 := rfl
  rw [e]
  by_cases hp : p
  · rw [if_pos hp]
    calc ∑ l ∈ Finset.range n, (if q l then 1 else 0) ≤ ∑ l ∈ Finset.range n, (if x = l then 1 else 0) := by
          refine Finset.sum_le_sum (fun l hl => ?_)
          split_ifs with h1 h2 h2
          · exact le_refl _
          · exact absurd (h l (Finset.mem_range.mp hl) h1).1.symm h2
          · exact Nat.zero_le _
          · exact le_refl _
      _ ≤ 1 := by rw [Finset.sum_ite_eq]; split_ifs <;> omega
  · rw [if_neg hp]
    refine le_of_eq (Finset.sum_eq_zero (fun l hl => ?_))
    rw [if_neg]
    intro h1
    exact hp (h l (Finset.mem_range.mp hl) h1).2

theorem countP_flatMap_le {A B : Type*} (L : List A) (f : A → List B) (p : B → Bool) (q : A → Bool)
    (h : ∀ j ∈ L, (f j).countP p ≤ if q j then 1 else 0) : (L.flatMap f).countP p ≤ L.countP q := by
  induction L with
  | nil => exact le_refl _
  | cons x L ih =>
    rw [List.flatMap_cons, List.countP_append, List.countP_cons]
    have h1 := h x List.mem_cons_self
    have h2 := ih (fun j hj => h j (List.mem_cons_of_mem _ hj))
    omega

theorem gradIdx_count (I : ProjIn α) (hK : projBasisOk I.K = true) (hf : projFeatOk I.nf = true) (a : ℕ ⊕ ℕ) :
    (gradIdx I (projCfg I)).countP (fun i => gradAddr I (projCfg I) i = a) ≤ gradUses I a := by
  obtain ⟨hc, hd⟩ := projCfg_ok I hK hf
  have hgp := hc.gf_pos
  have hgf : (projCfg I).gf = groupFeat I.nf := rfl
  have hcK : (projCfg I).K = I.K := rfl
  set c := projCfg I with hcdef
  have hblk := feat_blocks hd
  have hnf : 0 < I.nf := by
    have : 0 < I.nf ∧ (I.nf < 8 ∨ I.nf % 8 = 0) := by simpa [projFeatOk] using hf
    exact this.1
  have hnb : 0 < I.nf / c.gf := Nat.div_pos (Nat.le_of_dvd hnf hd) hgp
  have hoff : ∀ it f', f' < c.gf → I.off c it + f' < I.nf := by
    intro it f' hf'
    unfold ProjIn.off
    conv_rhs => rw [← hblk]
    exact sh_mul_add_lt hf' (Nat.mod_lt _ hnb)
  have hKp : 0 < c.K := by
    rw [hcK]
    have : ((I.K = 8 ∨ I.K = 16) ∨ I.K = 32) ∨ I.K = 64 := by simpa [projBasisOk] using hK
    omega
  unfold gradIdx
  rw [List.countP_flatMap]
  have hsum : ∀ F : ℕ → ℕ, ((List.range (I.total c)).map F).sum =
      ∑ s ∈ Finset.range I.S, ∑ b ∈ Finset.range (I.nf / c.gf), F (b + s * (I.nf / c.gf)) := by
    intro F
    have : ((List.range (I.total c)).map F).sum = ∑ x ∈ Finset.range (I.total c), F x := rfl
    rw [this]
    exact sum_range_mul_blocks I.S (I.nf / c.gf) F
  rw [hsum]
  have hsamp : ∀ s b, b < I.nf / c.gf → I.sample c (b + s * (I.nf / c.gf)) = s := by
    intro s b hb
    unfold ProjIn.sample
    rw [Nat.add_mul_div_right _ _ hnb, Nat.div_eq_of_lt hb, Nat.zero_add]
  have hmod : ∀ s b, b < I.nf / c.gf → (b + s * (I.nf / c.gf)) % (I.nf / c.gf) = b := by
    intro s b hb
    rw [Nat.add_mul_mod_self_right, Nat.mod_eq_of_lt hb]
  cases a with
  | inl i =>
    have hin : ∀ it j, (List.countP (fun x => decide (gradAddr I c x = Sum.inl i))
        ((List.range c.K).flatMap (fun l => (it, j, l, false) :: if l < c.gf then [(it, j, l, true)] else []))) ≤
        if j = i / I.K then 1 else 0 := by
      intro it j
      rw [List.countP_flatMap]
      have : ((List.range c.K).map (List.countP (fun x => decide (gradAddr I c x = Sum.inl i)) ∘ fun l =>
          (it, j, l, false) :: if l < c.gf then [(it, j, l, true)] else [])) =
          ((List.range c.K).map (fun l => if decide (j * c.K + l = i) then 1 else 0)) := by
        refine List.map_congr_left (fun l _ => ?_)
        simp only [Function.comp, List.countP_cons, gradAddr, Sum.inl.injEq]
        split_ifs <;> simp [gradAddr]
      rw [this]
      refine sum_ind_le c.K (i % c.K) _ _ (fun l hl h => ?_)
      have h := of_decide_eq_true h
      constructor
      · rw [← h, Nat.add_comm, Nat.add_mul_mod_self_right, Nat.mod_eq_of_lt hl]
      · rw [← h, ← hcK, Nat.add_comm, Nat.add_mul_div_right _ _ hKp, Nat.div_eq_of_lt hl, Nat.zero_add]
    show _ ≤ I.nf / c.gf * ∑ s ∈ Finset.range I.S, (rangeIdx I.ends s).countP (fun j => j = i / I.K)
    rw [Finset.mul_sum]
    refine Finset.sum_le_sum (fun s _ => ?_)
    refine (Finset.sum_le_card_nsmul _ _ ((rangeIdx I.ends s).countP (fun j => j = i / I.K)) (fun b hb => ?_)).trans
      (le_of_eq (by rw [Finset.card_range, smul_eq_mul]))
    rw [Finset.mem_range] at hb
    simp only [Function.comp]
    rw [hsamp s b hb]
    exact countP_flatMap_le _ _ _ _ (fun j _ => by simpa using hin _ j)
  | inr i =>
    have hin : ∀ it j, (List.countP (fun x => decide (gradAddr I c x = Sum.inr i))
        ((List.range c.K).flatMap (fun l => (it, j, l, false) :: if l < c.gf then [(it, j, l, true)] else []))) ≤
        if (I.nb j).1 = i / I.nf ∧ it % (I.nf / c.gf) = i % I.nf / c.gf then 1 else 0 := by
      intro it j
      rw [List.countP_flatMap]
      have : ((List.range c.K).map (List.countP (fun x => decide (gradAddr I c x = Sum.inr i)) ∘ fun l =>
          (it, j, l, false) :: if l < c.gf then [(it, j, l, true)] else [])) =
          ((List.range c.K).map (fun l => if decide (l < c.gf ∧ (I.nb j).1 * I.nf + I.off c it + l = i) then 1 else 0)) := by
        refine List.map_congr_left (fun l _ => ?_)
        simp only [Function.comp, List.countP_cons, gradAddr]
        by_cases hl : l < c.gf
        · simp [hl, gradAddr, List.countP_cons]
        · simp [hl]
      rw [this]
      refine sum_ind_le c.K (i % I.nf % c.gf) _ _ (fun l _ h => ?_)
      obtain ⟨hl, h⟩ := of_decide_eq_true h
      have ho := hoff it l hl
      have e1 : i / I.nf = (I.nb j).1 := by
        rw [← h, Nat.add_assoc, Nat.add_comm, Nat.add_mul_div_right _ _ hnf, Nat.div_eq_of_lt ho, Nat.zero_add]
      have e2 : i % I.nf = I.off c it + l := by
        rw [← h, Nat.add_assoc, Nat.add_comm, Nat.add_mul_mod_self_right, Nat.mod_eq_of_lt ho]
      rw [e2]
      unfold ProjIn.off
      refine ⟨?_, e1.symm, ?_⟩
      · rw [Nat.add_comm, Nat.add_mul_mod_self_right, Nat.mod_eq_of_lt hl]
      · rw [Nat.add_comm, Nat.add_mul_div_right _ _ hgp, Nat.div_eq_of_lt hl, Nat.zero_add]
    unfold gradUses
    refine Finset.sum_le_sum (fun s _ => ?_)
    have hb1 : ∀ b ∈ Finset.range (I.nf / c.gf), ((List.countP (fun x => decide (gradAddr I c x = Sum.inr i)) ∘ fun it =>
        (rangeIdx I.ends (I.sample c it)).flatMap (fun j => (List.range c.K).flatMap (fun l =>
          (it, j, l, false) :: if l < c.gf then [(it, j, l, true)] else []))) (b + s * (I.nf / c.gf))) ≤
        if i % I.nf / c.gf = b then (rangeIdx I.ends s).countP (fun j => (I.nb j).1 = i / I.nf) else 0 := by
      intro b hb
      rw [Finset.mem_range] at hb
      simp only [Function.comp]
      rw [hsamp s b hb]
      split_ifs with h
      · refine countP_flatMap_le _ _ _ _ (fun j _ => (hin _ j).trans ?_)
        rw [hmod s b hb]
        simp [h]
      · refine le_of_le_of_eq (countP_flatMap_le _ _ _ (fun _ => false) (fun j _ => (hin _ j).trans ?_)) (by simp)
        rw [hmod s b hb, if_neg (fun e => h e.2.symm)]
        simp
    refine (Finset.sum_le_sum hb1).trans ?_
    rw [Finset.sum_ite_eq]
    split_ifs
    · exact le_refl _
    · exact Nat.zero_le _

end

/-- **C128, gradients.** If every operation is rounded with relative error at most `u ≤ 1/64`: whatever the order of the
atomic additions, the gradients differ from those of the exact operation by at most
`((1 + 7u + 896u²)(1 + u)^(m+1) - 1)` times the gradients of the exact operation for the absolute values, where `m` bounds
the number of additions. -/
theorem C128_gradient {fl : ℝ → ℝ} {u : ℝ} (hu : 0 ≤ u) (hu64 : u ≤ 1 / 64) (hfl : ∀ x, |fl x - x| ≤ u * |x|)
    (I : ProjIn (Rounded fl)) (hK : projBasisOk I.K = true) (hf : projFeatOk I.nf = true) (g : ℕ → Rounded fl) (W W' W'' : ℕ)
    (hW : 0 < W) (hW' : 0 < W') (hW'' : 0 < W'') (out : ℕ ⊕ ℕ → Rounded fl) (oute outa : ℕ ⊕ ℕ → ℝ)
    (h : ProjGrad I g W out) (he : ProjGrad I.exact (fun i => (g i).val) W' oute)
    (ha : ProjGrad I.absolute (fun i => |(g i).val|) W'' outa) (a : ℕ ⊕ ℕ) :
    |(out a).val - oute a| ≤ ((1 + (7 * u + 896 * u ^ 2)) * (1 + u) ^ (gradUses I a + 1) - 1) * outa a := by
  obtain ⟨hc, hd⟩ := projCfg_ok I hK hf
  obtain ⟨idx, p1, o1⟩ := projGrad_addsA I hK hf g W hW out h
  obtain ⟨idx', p2, o2⟩ := projGrad_addsA I.exact hK hf _ W' hW' oute he
  obtain ⟨idx'', p3, o3⟩ := projGrad_addsA I.absolute hK hf _ W'' hW'' outa ha
  set c := projCfg I with hcdef
  have hg' : gradIdx I.exact (projCfg I.exact) = gradIdx I c := rfl
  have hg'' : gradIdx I.absolute (projCfg I.absolute) = gradIdx I c := rfl
  have ha' : gradAddr I.exact (projCfg I.exact) = gradAddr I c := by
    funext ⟨it, j, l, b⟩
    cases b <;> rfl
  have ha'' : gradAddr I.absolute (projCfg I.absolute) = gradAddr I c := by
    funext ⟨it, j, l, b⟩
    cases b <;> rfl
  rw [o1 a]
  have hsumfold : ∀ (l : List (ℕ × ℕ × ℕ × Bool)) (F : ℕ × ℕ × ℕ × Bool → ℝ) (x : ℝ),
      l.foldl (fun x i => x + F i) x = x + (l.map F).sum := by
    intro l F
    induction l with
    | nil => intro x; simp
    | cons i l ih => intro x; rw [List.foldl_cons, ih, List.map_cons, List.sum_cons, add_assoc]
  have e2 : oute a = ((idx.filter (fun i => gradAddr I c i = a)).map (gradVal I.exact c (fun i => (g i).val))).sum := by
    rw [o2 a, hsumfold, zero_add, ha']
    refine List.Perm.sum_eq (List.Perm.map _ (List.Perm.filter _ ?_))
    exact p2.trans p1.symm
  have e3 : outa a = ((idx.filter (fun i => gradAddr I c i = a)).map (gradVal I.absolute c (fun i => |(g i).val|))).sum := by
    rw [o3 a, hsumfold, zero_add, ha'']
    refine List.Perm.sum_eq (List.Perm.map _ (List.Perm.filter _ ?_))
    exact p3.trans p1.symm
  rw [e2, e3]
  have hcK : c.K ≤ 64 := by
    have : ((I.K = 8 ∨ I.K = 16) ∨ I.K = 32) ∨ I.K = 64 := by simpa [projBasisOk] using hK
    show I.K ≤ 64
    omega
  have hgf : c.gf ≤ 64 := by
    show min 8 I.nf ≤ 64
    omega
  have hkap : ∀ n : ℕ, n ≤ 64 → (1 + (7 * u + 14 * n * u ^ 2)) * (1 + u) ≤ (1 + (7 * u + 896 * u ^ 2)) * (1 + u) := by
    intro n hn
    have hn' : (n : ℝ) ≤ 64 := by exact_mod_cast hn
    have : (n : ℝ) * u ^ 2 ≤ 64 * u ^ 2 := mul_le_mul_of_nonneg_right hn' (sq_nonneg u)
    refine mul_le_mul_of_nonneg_right ?_ (by linarith)
    linarith
  have hlen : ∀ n : ℕ, n ≤ 64 → ((List.range n).length : ℝ) * u ≤ 1 := by
    intro n hn
    rw [List.length_range]
    have hn' : (n : ℝ) ≤ 64 := by exact_mod_cast hn
    have : (n : ℝ) * u ≤ 64 * (1 / 64) := mul_le_mul hn' hu64 hu (by norm_num)
    linarith
  have hterm : ∀ i, NearTo ((1 + (7 * u + 896 * u ^ 2)) * (1 + u)) (gradVal I c g i).val
      (gradVal I.exact c (fun i => (g i).val) i) (gradVal I.absolute c (fun i => |(g i).val|) i) := by
    rintro ⟨it, j, l, b⟩
    cases b
    · have := kahan_near hu hfl (by linarith) (List.range c.gf) (hlen _ hgf)
        (fun f => g (I.sample c it * I.nf * c.K + I.off c it * c.K + (f * c.K + l)))
        (fun f => I.feats ((I.nb j).1 * I.nf + I.off c it + f))
      rw [List.length_range] at this
      have := this.mono (hkap _ hgf)
      unfold gradVal
      simp only [kahan_fst_sum]
      simp only [abs_mul] at this
      exact this
    · have := kahan_near hu hfl (by linarith) (List.range c.K) (hlen _ hcK)
        (fun kk => g (I.sample c it * I.nf * c.K + I.off c it * c.K + (l * c.K + kk)))
        (fun kk => I.basis (j * c.K + kk))
      rw [List.length_range] at this
      have := this.mono (hkap _ hcK)
      unfold gradVal
      simp only [kahan_fst_sum]
      simp only [abs_mul] at this
      exact this
  have h1u : (1 : ℝ) ≤ 1 + u := by linarith
  have hγ : 1 ≤ (1 + (7 * u + 896 * u ^ 2)) * (1 + u) := by nlinarith [sq_nonneg u]
  have hfold := near_fold_zero hu hfl hγ (idx.filter (fun i => gradAddr I c i = a)) (gradVal I c g) _ _
    (fun i _ => hterm i)
  have hm : (idx.filter (fun i => gradAddr I c i = a)).length ≤ gradUses I a := by
    rw [← List.countP_eq_length_filter, p1.countP_eq]
    exact gradIdx_count I hK hf a
  refine (hfold.mono (γ' := (1 + (7 * u + 896 * u ^ 2)) * (1 + u) ^ (gradUses I a + 1)) ?_).err
  have hpow := pow_le_pow_right₀ h1u hm
  have e4 : (1 + (7 * u + 896 * u ^ 2)) * (1 + u) ^ (gradUses I a + 1) =
      (1 + u) ^ gradUses I a * ((1 + (7 * u + 896 * u ^ 2)) * (1 + u)) := by ring
  rw [e4]
  exact mul_le_mul_of_nonneg_right hpow (by linarith)

/-! ### the hypotheses are met -/

/-- Rounding to nearest with 24 bits. -/
example : (0 : ℝ) ≤ 1 / 2 ^ 24 ∧ (1 / 2 ^ 24 : ℝ) ≤ 1 / 64 ∧ ∀ x, |round24 x - x| ≤ 1 / 2 ^ 24 * |x| :=
  ⟨by norm_num, by norm_num, round24_rnd⟩

/-- Runs of the search in two orders, of the projection for both and of the gradients in all arithmetics. -/
example : (∃ out, ProjFwd (projAfterSearch 1 1 8 (reproMem 0 1 2) (fun _ _ _ => mk 1)
      (fun p => (mk (reproUp p) : Rounded round24))) 1 out) ∧
    FindRun 1 9 1 1 1 [reproRg] (fun _ _ => true) 3 (reproMem 0 1 2) ∧
    FindRun 1 9 1 1 1 [reproRg] (fun _ _ => true) 3 (reproMem 1 2 0) ∧
    allFinds 9 [reproRg] (fun _ _ => true) 0 = [0, 1, 2] ∧
    (∃ out, ProjGrad reproIn reproGrad 3 out) ∧ (∃ out, ProjGrad reproIn.exact (fun i => (reproGrad i).val) 3 out) ∧
    (∃ out, ProjGrad reproIn.absolute (fun i => |(reproGrad i).val|) 3 out) ∧
    gradUses reproIn (Sum.inr 0) = 3 ∧ gradUses reproIn (Sum.inl 0) = 1 :=
  ⟨exists_projFwd _ _, reproFind 0 1 2 (by decide) (by decide) (by decide) (by decide),
    reproFind 1 2 0 (by decide) (by decide) (by decide) (by decide), by decide +kernel, exists_projGrad _ _ _,
    exists_projGrad _ _ _, exists_projGrad _ _ _, by decide +kernel, by decide +kernel⟩

end PC
