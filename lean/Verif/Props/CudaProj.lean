import Verif.CudaProjLemmas2
import Verif.Props.CudaPdf

/-!
# Properties of the CUDA basis projection (C62, C86)
-/

set_option linter.unusedVariables false

namespace PC

open ProjAddr

section
variable {α : Type*} [Zero α] [Add α] [Sub α] [Mul α]

/-! ### the configuration -/

theorem projBasis_cases {K : ℕ} (h : projBasisOk K = true) : K = 8 ∨ K = 16 ∨ K = 32 ∨ K = 64 := by
  simpa [projBasisOk, or_assoc] using h

theorem projCfg_ok (I : ProjIn α) (hK : projBasisOk I.K = true) (hf : projFeatOk I.nf = true) :
    CfgOk (projCfg I) ∧ (projCfg I).gf ∣ I.nf := by
  have hK' := projBasis_cases hK
  have hf' : 0 < I.nf ∧ (I.nf < 8 ∨ I.nf % 8 = 0) := by simpa [projFeatOk] using hf
  refine ⟨⟨?_, ?_, ?_, ?_, ?_⟩, ?_⟩
  · show 0 < I.K
    omega
  · show 0 < 64
    omega
  · show I.K ∣ 64
    rcases hK' with h | h | h | h <;> rw [h] <;> decide
  · show 0 < min 8 I.nf
    omega
  · show min 8 I.nf ≤ I.K
    omega
  · show min 8 I.nf ∣ I.nf
    rcases hf'.2 with h | h
    · rw [min_eq_right (by omega)]
    · rw [min_eq_left (by omega)]
      exact Nat.dvd_of_mod_eq_zero h

theorem feat_blocks {c : ProjCfg} {nf : ℕ} (hd : c.gf ∣ nf) : nf / c.gf * c.gf = nf := Nat.div_mul_cancel hd

theorem total_pos {c : ProjCfg} (I : ProjIn α) (h : CfgOk c) (hd : c.gf ∣ I.nf) (hn : 0 < I.nf) (hS : 0 < I.S) :
    0 < I.total c := Nat.mul_pos hS (Nat.div_pos (Nat.le_of_dvd hn hd) h.gf_pos)

end

section
variable {α : Type*} [Field α]

/-! ### the forward operation -/

/-- The writes of all blocks. -/
theorem projFwd_writes (I : ProjIn α) (hK : projBasisOk I.K = true) (hf : projFeatOk I.nf = true) (W : ℕ)
    (hW : 0 < W) (hS : 0 < I.S) (out : ℕ → α) (ho : ProjFwd I W out) :
    ∃ tr : List (ℕ × α), tr.Perm ((List.range (I.total (projCfg I))).flatMap (projWrites I (projCfg I))) ∧
      out = runWrites (fun _ => 0) tr := by
  obtain ⟨hc, hd⟩ := projCfg_ok I hK hf
  have hnf : 0 < I.nf := by
    have : 0 < I.nf ∧ (I.nf < 8 ∨ I.nf % 8 = 0) := by simpa [projFeatOk] using hf
    exact this.1
  obtain ⟨effs, tr, hlen, hb, hi, rfl⟩ := ho
  refine ⟨tr, blocks_run (launchBlocks_pos hW (total_pos I hc hd hnf hS)) _ effs hlen ?_ hi, rfl⟩
  intro b e he
  obtain ⟨m, p, hp, rfl⟩ := hb b e he
  rw [← hlen]
  exact iters_run _ _ (fun it p hp m => projPhases_run I hc it p hp m) _ p hp m

/-- The projection, as a plain sum. -/
def projSum (I : ProjIn α) (s f k : ℕ) : α :=
  ((rangeIdx I.ends s).map (fun j => I.feats ((I.nb j).1 * I.nf + f) * I.basis (j * I.K + k))).sum

theorem projFwd_eq (I : ProjIn α) (hK : projBasisOk I.K = true) (hf : projFeatOk I.nf = true) (W : ℕ)
    (hW : 0 < W) (out : ℕ → α) (ho : ProjFwd I W out) (s f k : ℕ) (hs : s < I.S) (hfn : f < I.nf) (hk : k < I.K) :
    out ((s * I.nf + f) * I.K + k) = projSum I s f k := by
  obtain ⟨hc, hd⟩ := projCfg_ok I hK hf
  obtain ⟨tr, hp, rfl⟩ := projFwd_writes I hK hf W hW (by omega) out ho
  set c := projCfg I with hcdef
  have hcK : c.K = I.K := rfl
  have hgp := hc.gf_pos
  have hblk := feat_blocks hd
  have hnb : 0 < I.nf / c.gf := Nat.div_pos (Nat.le_of_dvd (by omega) hd) hgp
  -- where each write goes
  have haddr : ∀ it t f', (I.sample c it * I.nf * c.K + (I.off c it + f') * c.K + t) =
      (I.sample c it * I.nf + (I.off c it + f')) * I.K + t := by
    intro it t f'
    rw [hcK]; ring
  have hoff : ∀ it f', f' < c.gf → I.off c it + f' < I.nf := by
    intro it f' hf'
    unfold ProjIn.off
    conv_rhs => rw [← hblk]
    exact sh_mul_add_lt hf' (Nat.mod_lt _ hnb)
  have hval : ∀ it t f', (List.map (fun j => I.feats ((I.nb j).1 * I.nf + I.off c it + f') * I.basis (j * c.K + t))
      (rangeIdx I.ends (I.sample c it))).sum = projSum I (I.sample c it) (I.off c it + f') t := by
    intro it t f'
    unfold projSum
    rw [hcK]
    congr 1
    refine List.map_congr_left (fun j _ => ?_)
    rw [Nat.add_assoc]
  refine runWrites_mem _ _ _ _ ?_ ?_
  · rw [hp.mem_iff, List.mem_flatMap]
    have hq : f / c.gf < I.nf / c.gf := by
      rw [Nat.div_lt_iff_lt_mul hgp, hblk]; exact hfn
    have e1 : I.sample c (s * (I.nf / c.gf) + f / c.gf) = s := by
      unfold ProjIn.sample
      rw [Nat.add_comm, Nat.add_mul_div_right _ _ hnb, Nat.div_eq_of_lt hq, Nat.zero_add]
    have e2 : I.off c (s * (I.nf / c.gf) + f / c.gf) = f / c.gf * c.gf := by
      unfold ProjIn.off
      rw [Nat.add_comm, Nat.add_mul_mod_self_right, Nat.mod_eq_of_lt hq]
    have e3 : f / c.gf * c.gf + f % c.gf = f := by
      rw [Nat.mul_comm]; exact Nat.div_add_mod f c.gf
    refine ⟨s * (I.nf / c.gf) + f / c.gf, ?_, ?_⟩
    · rw [List.mem_range]
      unfold ProjIn.total
      exact sh_mul_add_lt hq hs
    · unfold projWrites
      rw [List.mem_flatMap]
      refine ⟨k, List.mem_range.mpr hk, List.mem_map.mpr ⟨f % c.gf, List.mem_range.mpr (Nat.mod_lt _ hgp), ?_⟩⟩
      rw [hval, haddr, e1, e2, e3]
  · intro w hw hwa
    rw [hp.mem_iff, List.mem_flatMap] at hw
    obtain ⟨it, _, hw⟩ := hw
    unfold projWrites at hw
    rw [List.mem_flatMap] at hw
    obtain ⟨t, ht, hw⟩ := hw
    obtain ⟨f', hf', rfl⟩ := List.mem_map.mp hw
    rw [List.mem_range] at ht hf'
    simp only at hwa ⊢
    rw [haddr] at hwa
    obtain ⟨h1, h2⟩ := sh_mul_add_inj ht hk hwa
    obtain ⟨h3, h4⟩ := sh_mul_add_inj (hoff it f' hf') hfn h1
    rw [hval, h2, h3, h4]

theorem flat2_mk {n d : ℕ} (x : Fin n → Fin d → α) (a : Fin n) (b : Fin d) : flat2 x (a.val * d + b.val) = x a b := by
  have hd : 0 < d := by have := b.isLt; omega
  have e1 : (a.val * d + b.val) / d = a.val := by
    rw [Nat.add_comm, Nat.add_mul_div_right _ _ hd, Nat.div_eq_of_lt b.isLt, Nat.zero_add]
  have e2 : (a.val * d + b.val) % d = b.val := by
    rw [Nat.add_comm, Nat.add_mul_mod_self_right, Nat.mod_eq_of_lt b.isLt]
  unfold flat2
  rw [dif_pos ⟨by rw [e1]; exact a.isLt, hd⟩]
  have e3 : (⟨(a.val * d + b.val) / d, by rw [e1]; exact a.isLt⟩ : Fin n) = a := Fin.ext e1
  have e4 : (⟨(a.val * d + b.val) % d, Nat.mod_lt _ hd⟩ : Fin d) = b := Fin.ext e2
  rw [e3, e4]

/-- A sum over the positions of a range as a sum over the pairs of a centre. -/
theorem sum_rangeIdx {n m : ℕ} {ranges : List ℕ} {pairs : List (Fin n × Fin m)} (hd : RangesDelimit ranges pairs)
    (i : Fin m) (P : ℕ → α) :
    ((rangeIdx (fun i => ranges.getD i 0) i.val).map P).sum =
      segSum (fun j : Fin pairs.length => P j.val) (fun j => (pairs.get j).2.val) i.val := by
  have hlt := rangeIdx_lt hd i.val
  obtain ⟨hlen, hmono, hlast, hiff⟩ := hd
  set ends : ℕ → ℕ := fun i => ranges.getD i 0 with hends
  have hmem : ∀ j : Fin pairs.length, j.val ∈ rangeIdx ends i.val ↔ (pairs.get j).2 = i := by
    intro j
    rw [← hiff i j]
    have e : rangeStart ends i.val = if i.val = 0 then 0 else ranges.getD (i.val - 1) 0 := by
      unfold rangeStart
      rcases Nat.eq_zero_or_pos i.val with h0 | h0
      · rw [if_neg (by omega), if_pos h0]
      · rw [if_pos h0, if_neg (by omega)]
    rw [← e]
    unfold rangeIdx
    rw [List.mem_map]
    constructor
    · rintro ⟨k, hk, hkj⟩
      rw [List.mem_range] at hk
      exact ⟨by omega, by show j.val < ends i.val; omega⟩
    · rintro ⟨h1, h2⟩
      have h2 : j.val < ends i.val := h2
      exact ⟨j.val - rangeStart ends i.val, List.mem_range.mpr (by omega), by omega⟩
  have hnd : (rangeIdx ends i.val).Nodup := by
    unfold rangeIdx
    exact List.nodup_range.map (fun a b h => by omega)
  rw [← List.sum_toFinset _ hnd]
  unfold segSum segRows
  symm
  refine Finset.sum_bij (fun j _ => j.val) ?_ ?_ ?_ ?_
  · intro j hj
    rw [Finset.mem_filter] at hj
    rw [List.mem_toFinset, hmem]
    exact Fin.ext hj.2
  · intro a _ b _ h
    exact Fin.ext h
  · intro j hj
    rw [List.mem_toFinset] at hj
    refine ⟨⟨j, hlt j hj⟩, ?_, rfl⟩
    rw [Finset.mem_filter]
    exact ⟨Finset.mem_univ _, congrArg Fin.val ((hmem ⟨j, hlt j hj⟩).mp hj)⟩
  · intro j _
    rfl

/-- **C62** (forward).  For every neighbourhood whose ranges delimit its pairs,
all basis values and features of sizes the operation accepts, every number of
blocks, every schedule and every initial contents of shared memory, the CUDA
operation returns the same tensor as the TensorFlow function: for each centre
the sum over its pairs of feature times basis value. -/
theorem C62_forward_equals_tf {n m nf K : ℕ} (ranges : List ℕ) (pairs : List (Fin n × Fin m))
    (hd : RangesDelimit ranges pairs) (basis : Fin pairs.length → Fin K → α) (f : Fin n → Fin nf → α)
    (hK : projBasisOk K = true) (hf : projFeatOk nf = true) (W : ℕ) (hW : 0 < W) (out : ℕ → α)
    (ho : ProjFwd (projArgs pairs (fun i => ranges.getD i 0) basis f) W out) (c : Fin m) (ch : Fin nf) (b : Fin K) :
    out ((c.val * nf + ch.val) * K + b.val) = basisProj pairs basis f c ch b := by
  refine (projFwd_eq (projArgs pairs (fun i => ranges.getD i 0) basis f) hK hf W hW out ho c.val ch.val b.val c.isLt
    ch.isLt b.isLt).trans ?_
  unfold projSum basisProj
  refine (sum_rangeIdx hd c _).trans ?_
  unfold segSum
  refine Finset.sum_congr rfl (fun j _ => ?_)
  have e1 : ((projArgs pairs (fun i => ranges.getD i 0) basis f).nb j.val).1 = (pairs.get j).1.val := by
    simp [projArgs, List.getElem?_eq_getElem j.isLt]
  simp only
  rw [e1]
  have e2 : gatherD f (pairs.get j).1.val = f (pairs.get j).1 := by
    unfold gatherD
    rw [dif_pos (pairs.get j).1.isLt]
  rw [e2]
  have e3 : (projArgs pairs (fun i => ranges.getD i 0) basis f).feats
      ((pairs.get j).1.val * nf + ch.val) = f (pairs.get j).1 ch := flat2_mk f _ ch
  have e4 : (projArgs pairs (fun i => ranges.getD i 0) basis f).basis (j.val * K + b.val) = basis j b :=
    flat2_mk basis j b
  exact congrArg₂ (· * ·) e3 e4

/-! ### the gradient -/

theorem projGrad_adds (I : ProjIn α) (hK : projBasisOk I.K = true) (hf : projFeatOk I.nf = true) (g : ℕ → α)
    (W : ℕ) (hW : 0 < W) (hS : 0 < I.S) (out : ℕ ⊕ ℕ → α) (ho : ProjGrad I g W out) :
    ∃ tr, tr.Perm ((List.range (I.total (projCfg I))).flatMap (iterAdds I (projCfg I) g)) ∧
      out = runAtomics (fun _ => 0) tr := by
  obtain ⟨hc, hd⟩ := projCfg_ok I hK hf
  have hnf : 0 < I.nf := by
    have : 0 < I.nf ∧ (I.nf < 8 ∨ I.nf % 8 = 0) := by simpa [projFeatOk] using hf
    exact this.1
  obtain ⟨effs, tr, hlen, hb, hi, rfl⟩ := ho
  refine ⟨tr, blocks_run (launchBlocks_pos hW (total_pos I hc hd hnf hS)) _ effs hlen ?_ hi, rfl⟩
  intro b e he
  obtain ⟨m, p, hp, rfl⟩ := hb b e he
  rw [← hlen]
  exact iters_run _ _ (fun it p hp m => gradPhases_run I hc g it p hp m) _ p hp m

/-- The bilinear form of the projection: upstream gradients times projection of
the basis values `β` and features `φ`. -/
def projForm (I : ProjIn α) (g β φ : ℕ → α) : α :=
  ∑ s ∈ Finset.range I.S, ((rangeIdx I.ends s).map (fun j =>
    ∑ f ∈ Finset.range I.nf, ∑ k ∈ Finset.range I.K,
      g ((s * I.nf + f) * I.K + k) * (φ ((I.nb j).1 * I.nf + f) * β (j * I.K + k)))).sum

theorem list_sum_range {M : Type*} [AddCommMonoid M] (n : ℕ) (h : ℕ → M) :
    ((List.range n).map h).sum = ∑ x ∈ Finset.range n, h x := rfl

theorem sum_lt_filter {M : Type*} [AddCommMonoid M] (K n : ℕ) (hn : n ≤ K) (h : ℕ → M) :
    ∑ l ∈ Finset.range K, (if l < n then h l else 0) = ∑ l ∈ Finset.range n, h l := by
  obtain ⟨r, rfl⟩ := Nat.exists_eq_add_of_le hn
  rw [Finset.sum_range_add]
  have hz : ∑ x ∈ Finset.range r, (if n + x < n then h (n + x) else 0) = 0 :=
    Finset.sum_eq_zero (fun x _ => by rw [if_neg (by omega)])
  rw [hz, add_zero]
  refine Finset.sum_congr rfl (fun x hx => ?_)
  rw [if_pos (Finset.mem_range.mp hx)]

/-- The additions of one iteration, paired with `β` and `φ`. -/
theorem gradAdds_pair (I : ProjIn α) {c : ProjCfg} (h : CfgOk c) (g β φ : ℕ → α) (it j : ℕ) :
    (((List.range c.K).flatMap (gradAdds I c g it j)).map (fun w => w.2 * Sum.elim β φ w.1)).sum =
    ∑ f ∈ Finset.range c.gf, ∑ k ∈ Finset.range c.K,
      g (I.sample c it * I.nf * c.K + I.off c it * c.K + (f * c.K + k)) *
        (I.feats ((I.nb j).1 * I.nf + I.off c it + f) * β (j * c.K + k) +
         φ ((I.nb j).1 * I.nf + I.off c it + f) * I.basis (j * c.K + k)) := by
  rw [List.map_flatMap, List.flatMap_def, List.sum_flatten, List.map_map, list_sum_range]
  have e : ∀ l, ((List.sum ∘ fun a => List.map (fun w => w.2 * Sum.elim β φ w.1) (gradAdds I c g it j a)) l) =
      (∑ f ∈ Finset.range c.gf, g (I.sample c it * I.nf * c.K + I.off c it * c.K + (f * c.K + l)) *
        I.feats ((I.nb j).1 * I.nf + I.off c it + f)) * β (j * c.K + l) +
      (if l < c.gf then (∑ k ∈ Finset.range c.K,
        g (I.sample c it * I.nf * c.K + I.off c it * c.K + (l * c.K + k)) * I.basis (j * c.K + k)) *
          φ ((I.nb j).1 * I.nf + I.off c it + l) else 0) := by
    intro l
    unfold gradAdds
    simp only [Function.comp, List.map_cons, List.sum_cons, Sum.elim_inl]
    congr 1
    split_ifs
    · simp only [List.map_cons, List.map_nil, List.sum_cons, List.sum_nil, add_zero, Sum.elim_inr]
      rfl
    · rfl
  simp only [e]
  rw [Finset.sum_add_distrib, sum_lt_filter _ _ h.gf_le]
  simp only [Finset.sum_mul]
  rw [Finset.sum_comm, ← Finset.sum_add_distrib]
  refine Finset.sum_congr rfl (fun f _ => ?_)
  rw [← Finset.sum_add_distrib]
  refine Finset.sum_congr rfl (fun k _ => ?_)
  ring

theorem list_sum_add {ι M : Type*} [AddCommMonoid M] (l : List ι) (a b : ι → M) :
    (l.map (fun j => a j + b j)).sum = (l.map a).sum + (l.map b).sum := by
  induction l with
  | nil => simp
  | cons x l ih => simp only [List.map_cons, List.sum_cons, ih]; exact add_add_add_comm _ _ _ _

theorem list_sum_comm {ι M : Type*} [AddCommMonoid M] (l : List ι) (s : Finset ℕ) (a : ℕ → ι → M) :
    ∑ x ∈ s, (l.map (a x)).sum = (l.map (fun j => ∑ x ∈ s, a x j)).sum := by
  induction l with
  | nil => simp
  | cons y l ih => simp only [List.map_cons, List.sum_cons, Finset.sum_add_distrib, ih]

/-- All additions, paired with `β` and `φ`. -/
theorem adds_pair (I : ProjIn α) {c : ProjCfg} (h : CfgOk c) (hcK : c.K = I.K) (hd : c.gf ∣ I.nf) (hn : 0 < I.nf)
    (g β φ : ℕ → α) :
    (((List.range (I.total c)).flatMap (iterAdds I c g)).map (fun w => w.2 * Sum.elim β φ w.1)).sum =
    projForm I g β I.feats + projForm I g I.basis φ := by
  have hblk := feat_blocks hd
  have hnb : 0 < I.nf / c.gf := Nat.div_pos (Nat.le_of_dvd hn hd) h.gf_pos
  rw [List.map_flatMap, List.flatMap_def, List.sum_flatten, List.map_map, list_sum_range]
  unfold ProjIn.total
  rw [sum_range_mul_blocks]
  unfold projForm
  rw [← Finset.sum_add_distrib]
  refine Finset.sum_congr rfl (fun s _ => ?_)
  rw [← list_sum_add]
  have e : ∀ b ∈ Finset.range (I.nf / c.gf),
      (List.sum ∘ fun a => List.map (fun w => w.2 * Sum.elim β φ w.1) (iterAdds I c g a)) (b + s * (I.nf / c.gf)) =
      ((rangeIdx I.ends s).map (fun j => ∑ f ∈ Finset.range c.gf, ∑ k ∈ Finset.range c.K,
        g ((s * I.nf + (f + b * c.gf)) * I.K + k) *
        (I.feats ((I.nb j).1 * I.nf + (f + b * c.gf)) * β (j * I.K + k) +
         φ ((I.nb j).1 * I.nf + (f + b * c.gf)) * I.basis (j * I.K + k)))).sum := by
    intro b hb
    rw [Finset.mem_range] at hb
    have e1 : I.sample c (b + s * (I.nf / c.gf)) = s := by
      unfold ProjIn.sample
      rw [Nat.add_mul_div_right _ _ hnb, Nat.div_eq_of_lt hb, Nat.zero_add]
    have e2 : I.off c (b + s * (I.nf / c.gf)) = b * c.gf := by
      unfold ProjIn.off
      rw [Nat.add_mul_mod_self_right, Nat.mod_eq_of_lt hb]
    simp only [Function.comp]
    unfold iterAdds
    rw [List.map_flatMap, List.flatMap_def, List.sum_flatten, List.map_map, e1]
    congr 1
    refine List.map_congr_left (fun j _ => ?_)
    simp only [Function.comp]
    rw [gradAdds_pair I h]
    refine Finset.sum_congr rfl (fun f _ => Finset.sum_congr rfl (fun k _ => ?_))
    rw [e1, e2, hcK]
    have a1 : s * I.nf * I.K + b * c.gf * I.K + (f * I.K + k) = (s * I.nf + (f + b * c.gf)) * I.K + k := by ring
    have a2 : (I.nb j).1 * I.nf + b * c.gf + f = (I.nb j).1 * I.nf + (f + b * c.gf) := by ring
    rw [a1, a2]
  rw [Finset.sum_congr rfl e, list_sum_comm]
  congr 1
  refine List.map_congr_left (fun j _ => ?_)
  rw [← Finset.sum_add_distrib]
  have e3 := sum_range_mul_blocks (I.nf / c.gf) c.gf (fun f => ∑ k ∈ Finset.range c.K,
        g ((s * I.nf + f) * I.K + k) *
        (I.feats ((I.nb j).1 * I.nf + f) * β (j * I.K + k) +
         φ ((I.nb j).1 * I.nf + f) * I.basis (j * I.K + k)))
  rw [hblk] at e3
  rw [← e3, hcK]
  refine Finset.sum_congr rfl (fun f _ => ?_)
  rw [← Finset.sum_add_distrib]
  refine Finset.sum_congr rfl (fun k _ => ?_)
  ring

/-- Indices in range: positions below `P`, neighbours below `N`. -/
def ProjIn.Valid (I : ProjIn α) (N P : ℕ) : Prop :=
  ∀ s < I.S, ∀ j ∈ rangeIdx I.ends s, j < P ∧ (I.nb j).1 < N

/-- **C62** (adjoint).  For all inputs with valid indices, all upstream gradients,
launches and schedules: the pairing of the two returned gradients with arbitrary
basis values `β` and features `φ` is the pairing of the upstream gradients with
the projection of (`β`, features) plus that of (basis, `φ`). -/
theorem C62_adjoint (I : ProjIn α) (N P : ℕ) (hv : I.Valid N P) (hK : projBasisOk I.K = true)
    (hf : projFeatOk I.nf = true) (g : ℕ → α) (W : ℕ) (hW : 0 < W) (hS : 0 < I.S) (out : ℕ ⊕ ℕ → α)
    (ho : ProjGrad I g W out) (β φ : ℕ → α) :
    ∑ i : Fin (P * I.K), out (Sum.inl i.val) * β i + ∑ i : Fin (N * I.nf), out (Sum.inr i.val) * φ i =
      ∑ s ∈ Finset.range I.S, ∑ f ∈ Finset.range I.nf, ∑ k ∈ Finset.range I.K,
        g ((s * I.nf + f) * I.K + k) *
          (projSum { I with basis := β } s f k + projSum { I with feats := φ } s f k) := by
  obtain ⟨hc, hd⟩ := projCfg_ok I hK hf
  have hnf : 0 < I.nf := by
    have : 0 < I.nf ∧ (I.nf < 8 ∨ I.nf % 8 = 0) := by simpa [projFeatOk] using hf
    exact this.1
  obtain ⟨tr, hp, rfl⟩ := projGrad_adds I hK hf g W hW hS out ho
  have hblk := feat_blocks hd
  have hnb : 0 < I.nf / (projCfg I).gf := Nat.div_pos (Nat.le_of_dvd hnf hd) hc.gf_pos
  have hpair := runAtomics_pair (K := α)
    (Sum.map Fin.val Fin.val : Fin (P * I.K) ⊕ Fin (N * I.nf) → ℕ ⊕ ℕ)
    (Sum.map_injective.mpr ⟨Fin.val_injective, Fin.val_injective⟩) tr (Sum.elim β φ) (by
      intro w hw
      rw [hp.mem_iff, List.mem_flatMap] at hw
      obtain ⟨it, hit, hw⟩ := hw
      rw [List.mem_range] at hit
      have hs : I.sample (projCfg I) it < I.S := by
        unfold ProjIn.sample
        rw [Nat.div_lt_iff_lt_mul hnb]
        exact hit
      have hoff : ∀ l < (projCfg I).gf, I.off (projCfg I) it + l < I.nf := by
        intro l hl
        unfold ProjIn.off
        conv_rhs => rw [← hblk]
        exact sh_mul_add_lt hl (Nat.mod_lt _ hnb)
      unfold iterAdds at hw
      rw [List.mem_flatMap] at hw
      obtain ⟨j, hj, hw⟩ := hw
      rw [List.mem_flatMap] at hw
      obtain ⟨l, hl, hw⟩ := hw
      rw [List.mem_range] at hl
      obtain ⟨v1, v2⟩ := hv _ hs j hj
      unfold gradAdds at hw
      rcases List.mem_cons.mp hw with rfl | hw
      · exact ⟨Sum.inl ⟨j * I.K + l, sh_mul_add_lt hl v1⟩, rfl⟩
      · split_ifs at hw with hlt
        · rw [List.mem_singleton] at hw
          subst hw
          refine ⟨Sum.inr ⟨(I.nb j).1 * I.nf + I.off (projCfg I) it + l, ?_⟩, rfl⟩
          rw [Nat.add_assoc]
          exact sh_mul_add_lt (hoff l hlt) v2
        · cases hw)
  rw [Fintype.sum_sum_type] at hpair
  refine hpair.trans ?_
  rw [(hp.map _).sum_eq, adds_pair I hc rfl hd hnf]
  unfold projForm projSum
  rw [← Finset.sum_add_distrib]
  refine Finset.sum_congr rfl (fun s _ => ?_)
  rw [← list_sum_comm, ← list_sum_comm, ← Finset.sum_add_distrib]
  refine Finset.sum_congr rfl (fun f _ => ?_)
  rw [← list_sum_comm, ← list_sum_comm, ← Finset.sum_add_distrib]
  refine Finset.sum_congr rfl (fun k _ => ?_)
  simp only
  rw [mul_add, List.sum_map_mul_left, List.sum_map_mul_left]

end

/-! ### the gradient as a derivative -/

/-- Coordinate `i` of a flat array, 0 outside. -/
noncomputable def coordL {n : ℕ} (i : ℕ) : (Fin n → ℝ) →L[ℝ] ℝ :=
  if h : i < n then ContinuousLinearMap.proj (R := ℝ) (φ := fun _ : Fin n => ℝ) ⟨i, h⟩ else 0

theorem coordL_apply {n : ℕ} (i : ℕ) (v : Fin n → ℝ) : coordL i v = gatherD v i := by
  unfold coordL gatherD
  split_ifs <;> rfl

/-- A bilinear term. -/
theorem hasFDerivAt_term {a b : ℕ} (i k : ℕ) (x : ℝ) (p : (Fin a → ℝ) × (Fin b → ℝ)) :
    ∃ L : (Fin a → ℝ) × (Fin b → ℝ) →L[ℝ] ℝ,
      HasFDerivAt (fun q : (Fin a → ℝ) × (Fin b → ℝ) => x * (gatherD q.2 i * gatherD q.1 k)) L p ∧
      ∀ v, L v = x * (gatherD p.2 i * gatherD v.1 k + gatherD v.2 i * gatherD p.1 k) := by
  let A : (Fin a → ℝ) × (Fin b → ℝ) →L[ℝ] ℝ := (coordL i).comp (ContinuousLinearMap.snd ℝ _ _)
  let B : (Fin a → ℝ) × (Fin b → ℝ) →L[ℝ] ℝ := (coordL k).comp (ContinuousLinearMap.fst ℝ _ _)
  have hA : ∀ q, A q = gatherD q.2 i := fun q => coordL_apply i q.2
  have hB : ∀ q, B q = gatherD q.1 k := fun q => coordL_apply k q.1
  have h := ((A.hasFDerivAt (x := p)).mul (B.hasFDerivAt (x := p))).const_mul x
  refine ⟨_, h.congr_of_eventuallyEq (Filter.Eventually.of_forall (fun q => ?_)), ?_⟩
  · simp only [Pi.mul_apply, hA, hB]
  · intro v
    simp only [smul_apply, add_apply, smul_eq_mul, hA, hB]
    ring

theorem hasFDerivAt_list_sum {E ι : Type*} [NormedAddCommGroup E] [NormedSpace ℝ E] (l : List ι) (T : ι → E → ℝ)
    (D : ι → E → ℝ) (p : E) (h : ∀ j ∈ l, ∃ L : E →L[ℝ] ℝ, HasFDerivAt (T j) L p ∧ ∀ v, L v = D j v) :
    ∃ L : E →L[ℝ] ℝ, HasFDerivAt (fun q => (l.map (fun j => T j q)).sum) L p ∧
      ∀ v, L v = (l.map (fun j => D j v)).sum := by
  induction l with
  | nil => exact ⟨0, hasFDerivAt_const 0 p, fun v => rfl⟩
  | cons j l ih =>
    obtain ⟨L1, h1, e1⟩ := h j List.mem_cons_self
    obtain ⟨L2, h2, e2⟩ := ih (fun x hx => h x (List.mem_cons_of_mem _ hx))
    refine ⟨L1 + L2, ?_, ?_⟩
    · simp only [List.map_cons, List.sum_cons]
      exact h1.add h2
    · intro v
      rw [add_apply, e1, e2, List.map_cons, List.sum_cons]

theorem hasFDerivAt_range_sum {E : Type*} [NormedAddCommGroup E] [NormedSpace ℝ E] (n : ℕ) (T : ℕ → E → ℝ)
    (D : ℕ → E → ℝ) (p : E) (h : ∀ j < n, ∃ L : E →L[ℝ] ℝ, HasFDerivAt (T j) L p ∧ ∀ v, L v = D j v) :
    ∃ L : E →L[ℝ] ℝ, HasFDerivAt (fun q => ∑ j ∈ Finset.range n, T j q) L p ∧
      ∀ v, L v = ∑ j ∈ Finset.range n, D j v :=
  hasFDerivAt_list_sum (List.range n) T D p (fun j hj => h j (List.mem_range.mp hj))

theorem sum_fin_blocks {M : Type*} [AddCommMonoid M] (S F K : ℕ) (h : ℕ → M) :
    ∑ i : Fin (S * F * K), h i.val =
      ∑ s ∈ Finset.range S, ∑ f ∈ Finset.range F, ∑ k ∈ Finset.range K, h ((s * F + f) * K + k) := by
  rw [Fin.sum_univ_eq_sum_range h, sum_range_mul_blocks, sum_range_mul_blocks]
  refine Finset.sum_congr rfl (fun s _ => Finset.sum_congr rfl (fun f _ => Finset.sum_congr rfl (fun k _ => ?_)))
  congr 1
  ring

/-- **C62** (gradient).  For all features and basis values of accepted sizes,
neighbourhoods with valid indices, upstream gradients `g`, launches and
schedules of both operations: the weighted sum of the output of the projection
is differentiable jointly in basis values and features, and its derivative in
direction `v` is the scalar product of `v` with the two returned gradients. -/
theorem C62_gradient (I : ProjIn ℝ) (N P : ℕ) (hv : I.Valid N P) (hK : projBasisOk I.K = true)
    (hf : projFeatOk I.nf = true) (hS : 0 < I.S) (W W' : ℕ) (hW : 0 < W) (hW' : 0 < W') (g : ℕ → ℝ)
    (p : (Fin (P * I.K) → ℝ) × (Fin (N * I.nf) → ℝ))
    (fwd : (Fin (P * I.K) → ℝ) × (Fin (N * I.nf) → ℝ) → ℕ → ℝ)
    (hfw : ∀ q, ProjFwd { I with basis := gatherD q.1, feats := gatherD q.2 } W (fwd q))
    (out : ℕ ⊕ ℕ → ℝ) (ho : ProjGrad { I with basis := gatherD p.1, feats := gatherD p.2 } g W' out) :
    ∃ L : (Fin (P * I.K) → ℝ) × (Fin (N * I.nf) → ℝ) →L[ℝ] ℝ,
      HasFDerivAt (fun q => ∑ i : Fin (I.S * I.nf * I.K), g i * fwd q i) L p ∧
      ∀ v, L v = ∑ i, out (Sum.inl i.val) * v.1 i + ∑ i, out (Sum.inr i.val) * v.2 i := by
  -- the function and its derivative as sums of bilinear terms
  have hfun : (fun q => ∑ i : Fin (I.S * I.nf * I.K), g i * fwd q i) = fun q =>
      ∑ s ∈ Finset.range I.S, ∑ f ∈ Finset.range I.nf, ∑ k ∈ Finset.range I.K,
        ((rangeIdx I.ends s).map (fun j => g ((s * I.nf + f) * I.K + k) *
          (gatherD q.2 ((I.nb j).1 * I.nf + f) * gatherD q.1 (j * I.K + k)))).sum := by
    funext q
    rw [sum_fin_blocks I.S I.nf I.K (fun i => g i * fwd q i)]
    refine Finset.sum_congr rfl (fun s hs => Finset.sum_congr rfl (fun f hf' =>
      Finset.sum_congr rfl (fun k hk => ?_)))
    rw [Finset.mem_range] at hs hf' hk
    rw [List.sum_map_mul_left]
    congr 1
    exact projFwd_eq { I with basis := gatherD q.1, feats := gatherD q.2 } hK hf W hW _ (hfw q) s f k hs hf' hk
  have k1 : ∀ s f k, ∃ L : (Fin (P * I.K) → ℝ) × (Fin (N * I.nf) → ℝ) →L[ℝ] ℝ,
      HasFDerivAt (fun q : (Fin (P * I.K) → ℝ) × (Fin (N * I.nf) → ℝ) =>
        ((rangeIdx I.ends s).map (fun j => g ((s * I.nf + f) * I.K + k) *
          (gatherD q.2 ((I.nb j).1 * I.nf + f) * gatherD q.1 (j * I.K + k)))).sum) L p ∧
      ∀ v, L v = ((rangeIdx I.ends s).map (fun j => g ((s * I.nf + f) * I.K + k) *
        (gatherD p.2 ((I.nb j).1 * I.nf + f) * gatherD v.1 (j * I.K + k) +
         gatherD v.2 ((I.nb j).1 * I.nf + f) * gatherD p.1 (j * I.K + k)))).sum := fun s f k =>
    hasFDerivAt_list_sum (rangeIdx I.ends s)
      (fun j (q : (Fin (P * I.K) → ℝ) × (Fin (N * I.nf) → ℝ)) => g ((s * I.nf + f) * I.K + k) *
          (gatherD q.2 ((I.nb j).1 * I.nf + f) * gatherD q.1 (j * I.K + k)))
      (fun j v => g ((s * I.nf + f) * I.K + k) *
        (gatherD p.2 ((I.nb j).1 * I.nf + f) * gatherD v.1 (j * I.K + k) +
         gatherD v.2 ((I.nb j).1 * I.nf + f) * gatherD p.1 (j * I.K + k))) p
      (fun j _ => hasFDerivAt_term _ _ _ p)
  have k2 := fun s f => hasFDerivAt_range_sum I.K _ _ p (fun k _ => k1 s f k)
  have k3 := fun s => hasFDerivAt_range_sum I.nf _ _ p (fun f _ => k2 s f)
  obtain ⟨L, hL, e⟩ := hasFDerivAt_range_sum I.S _ _ p (fun s _ => k3 s)
  refine ⟨L, by rw [hfun]; exact hL, ?_⟩
  intro v
  have hadj := C62_adjoint { I with basis := gatherD p.1, feats := gatherD p.2 } N P hv hK hf g W' hW' hS out ho
    (gatherD v.1) (gatherD v.2)
  have hget : ∀ {n : ℕ} (x : Fin n → ℝ) (i : Fin n), gatherD x i.val = x i := by
    intro n x i
    unfold gatherD
    rw [dif_pos i.isLt]
  simp only [hget] at hadj
  rw [e]
  refine Eq.trans ?_ hadj.symm
  refine Finset.sum_congr rfl (fun s _ => Finset.sum_congr rfl (fun f _ => Finset.sum_congr rfl (fun k _ => ?_)))
  unfold projSum
  rw [List.sum_map_mul_left]
  congr 1
  exact list_sum_add _ _ _

/-! ### runs exist -/

section
variable {α : Type*} [Zero α] [Add α] [Sub α] [Mul α]

theorem exists_projFwd (I : ProjIn α) (W : ℕ) : ∃ out, ProjFwd I W out := by
  have hb : ∀ b, ∃ e, ProjBlock I (projCfg I) (launchBlocks W (I.total (projCfg I))) b e := by
    intro b
    obtain ⟨p, hp⟩ := Phased.exists_seq
      ((strideLoop (launchBlocks W (I.total (projCfg I))) (I.total (projCfg I)) b).flatMap (projPhases I (projCfg I)))
    exact ⟨_, fun _ => 0, p, hp, rfl⟩
  choose e he using hb
  refine ⟨_, (List.range (launchBlocks W (I.total (projCfg I)))).map e, _, by simp, ?_, Interleave.exists_seq _, rfl⟩
  intro b x hx
  rw [List.getElem?_map, Option.map_eq_some_iff] at hx
  obtain ⟨u, hu, rfl⟩ := hx
  obtain ⟨h1, h2⟩ := List.getElem?_eq_some_iff.mp hu
  rw [List.getElem_range] at h2
  subst h2
  rw [List.length_map, List.length_range]
  exact he b

theorem exists_projGrad (I : ProjIn α) (g : ℕ → α) (W : ℕ) : ∃ out, ProjGrad I g W out := by
  have hb : ∀ b, ∃ e, GradBlock I (projCfg I) g (launchBlocks W (I.total (projCfg I))) b e := by
    intro b
    obtain ⟨p, hp⟩ := Phased.exists_seq
      ((strideLoop (launchBlocks W (I.total (projCfg I))) (I.total (projCfg I)) b).flatMap
        (gradPhases I (projCfg I) g))
    exact ⟨_, fun _ => 0, p, hp, rfl⟩
  choose e he using hb
  refine ⟨_, (List.range (launchBlocks W (I.total (projCfg I)))).map e, _, by simp, ?_, Interleave.exists_seq _, rfl⟩
  intro b x hx
  rw [List.getElem?_map, Option.map_eq_some_iff] at hx
  obtain ⟨u, hu, rfl⟩ := hx
  obtain ⟨h1, h2⟩ := List.getElem?_eq_some_iff.mp hu
  rw [List.getElem_range] at h2
  subst h2
  rw [List.length_map, List.length_range]
  exact he b

end

section
variable {α : Type*} [Field α]

/-! ### C86: barriers and memory bounds -/

theorem strideLoop_full {T : ℕ} (hT : 0 < T) (p : ℕ) : ∀ k ≤ p, ∀ g < T,
    strideLoop T (p * T) (g + k * T) = (List.range (p - k)).map (fun i => g + (k + i) * T) := by
  intro k hk
  induction hm : p - k generalizing k with
  | zero =>
    intro g hg
    have : k = p := by omega
    subst this
    rw [strideLoop, dif_neg (by omega)]
    rfl
  | succ m ih =>
    intro g hg
    have hlt : g + k * T < p * T := by
      rw [Nat.add_comm]
      exact sh_mul_add_lt hg (by omega)
    have e : g + k * T + T = g + (k + 1) * T := by ring
    rw [strideLoop, dif_pos ⟨hlt, hT⟩, e, ih (k + 1) (by omega) (by omega) g hg, List.range_succ_eq_map,
      List.map_cons, List.map_map, Nat.add_zero]
    congr 1
    refine List.map_congr_left (fun i _ => ?_)
    simp only [Function.comp, Nat.succ_eq_add_one]
    ring

/-- **C86** (barriers).  In both projection kernels every thread of a block runs
the loop over the neighbours, which contains the barriers, the same number of
times, at least once, whatever the number of neighbours: thread `t` visits the
positions `t / K + k * (64 / K)` for `k = 0, …, n / (64 / K)`. -/
theorem C86_uniform_passes (K nf n t : ℕ) (hK : projBasisOk K = true) (hf : projFeatOk nf = true) (ht : t < 64) :
    strideLoop (64 / K) (n + (64 / K - n % (64 / K))) (t / K) =
      (List.range (n / (64 / K) + 1)).map (fun k => t / K + k * (64 / K)) := by
  have hc : CfgOk ⟨64, K, groupFeat nf⟩ := (projCfg_ok (α := ℚ) ⟨1, nf, K, 0, 0, 0, 0⟩ hK hf).1
  have hr : n + (64 / K - n % (64 / K)) = (n / (64 / K) + 1) * (64 / K) := hc.rounded_eq n
  have h := strideLoop_full hc.G_pos (n / (64 / K) + 1) 0 (Nat.zero_le _) (t / K) (hc.gid_lt (t := t) ht)
  rw [Nat.zero_mul, Nat.add_zero] at h
  rw [hr]
  refine Eq.trans h ?_
  rw [Nat.sub_zero]
  refine List.map_congr_left (fun i _ => ?_)
  rw [Nat.zero_add]
  rfl

/-- Shared memory below `n`, and the registers. -/
def shBelow (n : ℕ) : Set ProjAddr := { a | (∃ i < n, a = sh i) ∨ ∃ t r, a = reg t r }

theorem Phased.mem_acts {β : Type*} {phs : List (List (List β))} {p : List β} (h : Phased phs p) :
    ∀ a ∈ p, ∃ ph ∈ phs, ∃ th ∈ ph, a ∈ th := by
  induction h with
  | nil => intro a ha; cases ha
  | @cons _ _ t1 t2 hx next ih =>
    intro a ha
    rcases List.mem_append.mp ha with ha | ha
    · rw [hx.perm.mem_iff, List.mem_flatten] at ha
      exact ⟨_, List.mem_cons_self, ha⟩
    · obtain ⟨ph, hph, h⟩ := ih a ha
      exact ⟨ph, List.mem_cons_of_mem _ hph, h⟩

theorem feat_lt_shared {c : ProjCfg} (h : CfgOk c) {g f : ℕ} (hg : g < c.G) (hf : f < c.gf) :
    c.featPtr + (g * c.gf + f) < projShared c := by
  have h1 := sh_mul_add_lt hf hg
  have h2 : c.G * c.gf ≤ c.B := by
    rw [← h.B_eq]
    exact Nat.mul_le_mul_left _ h.gf_le
  unfold projShared ProjCfg.featPtr
  rw [Nat.mul_add]
  omega

theorem projPhases_local (I : ProjIn α) {c : ProjCfg} (h : CfgOk c) (it : ℕ) (p : List (ProjAct α))
    (hp : Phased (projPhases I c it) p) : ∀ act ∈ p, LocalB ∅ (shBelow (projShared c)) act := by
  intro act hact
  obtain ⟨ph, hph, th, hth, hact⟩ := hp.mem_acts act hact
  have hreg : ∀ t r, reg t r ∈ shBelow (projShared c) := fun t r => Or.inr ⟨t, r, rfl⟩
  have hacc : ∀ t < c.B, ∀ f < c.gf, sh (f * c.B + t) ∈ shBelow (projShared c) := fun t ht f hf =>
    Or.inl ⟨_, by
      have := CfgOk.acc_lt hf ht
      unfold projShared
      unfold ProjCfg.featPtr at this
      rw [Nat.mul_add]
      omega, rfl⟩
  have hfeat : ∀ g < c.G, ∀ f < c.gf, sh (c.featPtr + (g * c.gf + f)) ∈ shBelow (projShared c) := fun g hg f hf =>
    Or.inl ⟨_, feat_lt_shared h hg hf, rfl⟩
  unfold projPhases at hph
  rcases List.mem_append.mp hph with hph | hph
  · obtain ⟨k, _, hph⟩ := List.mem_flatMap.mp hph
    simp only [List.mem_cons, List.not_mem_nil, or_false] at hph
    rcases hph with rfl | rfl
    · obtain ⟨t, ht, rfl⟩ := List.mem_map.mp hth
      rw [List.mem_range] at ht
      rcases List.mem_append.mp hact with hact | hact
      · split_ifs at hact
        · obtain ⟨f, hf, rfl⟩ := List.mem_map.mp hact
          exact LocalB.setB (hacc t ht f (List.mem_range.mp hf)) (fun _ _ _ => rfl)
        · cases hact
      · unfold projLoad at hact
        dsimp only at hact
        split_ifs at hact with hj hl hl
        · rcases List.mem_cons.mp hact with rfl | hact
          · exact LocalB.setB (hreg t 0) (fun _ _ _ => rfl)
          · rw [List.mem_singleton] at hact; subst hact
            exact LocalB.setB (hfeat _ (h.gid_lt ht) _ hl) (fun _ _ _ => rfl)
        · rcases List.mem_cons.mp hact with rfl | hact
          · exact LocalB.setB (hreg t 0) (fun _ _ _ => rfl)
          · cases hact
        · rcases List.mem_cons.mp hact with rfl | hact
          · exact LocalB.setB (hreg t 0) (fun _ _ _ => rfl)
          · rw [List.mem_singleton] at hact; subst hact
            exact LocalB.setB (hfeat _ (h.gid_lt ht) _ hl) (fun _ _ _ => rfl)
        · rcases List.mem_cons.mp hact with rfl | hact
          · exact LocalB.setB (hreg t 0) (fun _ _ _ => rfl)
          · cases hact
    · obtain ⟨t, ht, rfl⟩ := List.mem_map.mp hth
      rw [List.mem_range] at ht
      obtain ⟨f, hf, rfl⟩ := List.mem_map.mp hact
      rw [List.mem_range] at hf
      refine LocalB.setB (hacc t ht f hf) (fun m m' hmm => ?_)
      rw [hmm _ (Or.inl (hacc t ht f hf)), hmm _ (Or.inl (hfeat _ (h.gid_lt ht) f hf)), hmm _ (Or.inl (hreg t 0))]
  · rw [List.mem_singleton] at hph
    subst hph
    obtain ⟨t, ht, rfl⟩ := List.mem_map.mp hth
    unfold projSave at hact
    split_ifs at hact with htk
    · obtain ⟨f, hf, hact⟩ := List.mem_flatMap.mp hact
      rw [List.mem_range] at hf
      simp only [List.cons_append, List.mem_cons, List.mem_append, List.mem_map, List.not_mem_nil, or_false] at hact
      rcases hact with rfl | ⟨g, hg, rfl⟩ | rfl
      · exact LocalB.setB (hreg t 1) (fun _ _ _ => rfl)
      · rw [List.mem_range] at hg
        refine LocalB.setB (hreg t 1) (fun m m' hmm => ?_)
        have e : f * c.B + c.lid t + g * c.K = f * c.B + (g * c.K + c.lid t) := by ring
        rw [hmm _ (Or.inl (hreg t 1)), e, hmm _ (Or.inl (hacc _ (h.mk_lt hg (h.lid_lt t)) f hf))]
      · refine LocalB.emitB (fun m m' hmm => ?_)
        rw [hmm _ (Or.inl (hreg t 1))]
    · cases hact

theorem gradPhases_local (I : ProjIn α) {c : ProjCfg} (h : CfgOk c) (g : ℕ → α) (it : ℕ) (p : List (GradAct α))
    (hp : Phased (gradPhases I c g it) p) : ∀ act ∈ p, LocalB ∅ (shBelow (gradShared c)) act := by
  intro act hact
  obtain ⟨ph, hph, th, hth, hact⟩ := hp.mem_acts act hact
  have hsize : gradShared c = c.B * c.gf + c.G * c.gf + c.K * c.gf := by
    unfold gradShared ProjCfg.G; ring
  have hreg : ∀ t r, reg t r ∈ shBelow (gradShared c) := fun t r => Or.inr ⟨t, r, rfl⟩
  have hacc : ∀ t < c.B, ∀ f < c.gf, sh (f * c.B + t) ∈ shBelow (gradShared c) := fun t ht f hf =>
    Or.inl ⟨_, by
      have := CfgOk.acc_lt hf ht
      unfold ProjCfg.featPtr at this
      rw [hsize]
      omega, rfl⟩
  have hfeat : ∀ g < c.G, ∀ f < c.gf, sh (c.featPtr + (g * c.gf + f)) ∈ shBelow (gradShared c) := fun g hg f hf =>
    Or.inl ⟨_, by
      have := sh_mul_add_lt hf hg
      unfold ProjCfg.featPtr
      rw [hsize]
      omega, rfl⟩
  have hgrad : ∀ a < c.K * c.gf, sh (c.gradPtr + a) ∈ shBelow (gradShared c) := fun a ha =>
    Or.inl ⟨_, by
      unfold ProjCfg.gradPtr
      rw [hsize]
      omega, rfl⟩
  have hkah : ∀ t a e (x : (ProjAddr → α) → α), (∀ m m' : ProjAddr → α,
      (∀ y, y ∈ shBelow (gradShared c) ∨ y ∈ (∅ : Set ProjAddr) → m y = m' y) → x m = x m') →
      ∀ act ∈ kahanActs t a e x, LocalB ∅ (shBelow (gradShared c)) act := by
    intro t a e x hx act hact
    simp only [kahanActs, List.mem_cons, List.not_mem_nil, or_false] at hact
    rcases hact with rfl | rfl | rfl | rfl
    · refine LocalB.setB (hreg t 3) (fun m m' hmm => ?_)
      rw [hx m m' hmm, hmm _ (Or.inl (hreg t e))]
    · refine LocalB.setB (hreg t 4) (fun m m' hmm => ?_)
      rw [hmm _ (Or.inl (hreg t a)), hmm _ (Or.inl (hreg t 3))]
    · refine LocalB.setB (hreg t e) (fun m m' hmm => ?_)
      rw [hmm _ (Or.inl (hreg t a)), hmm _ (Or.inl (hreg t 3)), hmm _ (Or.inl (hreg t 4))]
    · refine LocalB.setB (hreg t a) (fun m m' hmm => ?_)
      rw [hmm _ (Or.inl (hreg t 4))]
  unfold gradPhases at hph
  rcases List.mem_append.mp hph with hph | hph
  · rw [List.mem_singleton] at hph
    subst hph
    obtain ⟨t, ht, rfl⟩ := List.mem_map.mp hth
    obtain ⟨a, ha, rfl⟩ := List.mem_map.mp hact
    exact LocalB.setB (hgrad a (strideLoop_lt ha)) (fun _ _ _ => rfl)
  · obtain ⟨k, _, hph⟩ := List.mem_flatMap.mp hph
    simp only [List.mem_cons, List.not_mem_nil, or_false] at hph
    rcases hph with rfl | rfl | rfl
    · obtain ⟨t, ht, rfl⟩ := List.mem_map.mp hth
      rw [List.mem_range] at ht
      unfold gradLoad at hact
      dsimp only at hact
      rcases List.mem_append.mp hact with hact | hact
      · simp only [List.mem_cons, List.not_mem_nil, or_false] at hact
        rcases hact with rfl | rfl | rfl <;> exact LocalB.setB (hreg t _) (fun _ _ _ => rfl)
      · split_ifs at hact with hj hl
        · rcases List.mem_cons.mp hact with rfl | hact
          · exact LocalB.setB (hreg t 0) (fun _ _ _ => rfl)
          · rw [List.mem_singleton] at hact; subst hact
            exact LocalB.setB (hfeat _ (h.gid_lt ht) _ hl) (fun _ _ _ => rfl)
        · rcases List.mem_cons.mp hact with rfl | hact
          · exact LocalB.setB (hreg t 0) (fun _ _ _ => rfl)
          · cases hact
        · cases hact
    · obtain ⟨t, ht, rfl⟩ := List.mem_map.mp hth
      rw [List.mem_range] at ht
      obtain ⟨f, hf, hact⟩ := List.mem_flatMap.mp hact
      rw [List.mem_range] at hf
      have hG : sh (c.gradPtr + (f * c.K + c.lid t)) ∈ shBelow (gradShared c) :=
        hgrad _ (by rw [Nat.mul_comm c.K]; exact sh_mul_add_lt (h.lid_lt t) hf)
      rcases List.mem_cons.mp hact with rfl | hact
      · refine LocalB.setB (hacc t ht f hf) (fun m m' hmm => ?_)
        rw [hmm _ (Or.inl hG), hmm _ (Or.inl (hreg t 0))]
      · refine hkah _ _ _ _ (fun m m' hmm => ?_) act hact
        rw [hmm _ (Or.inl hG), hmm _ (Or.inl (hfeat _ (h.gid_lt ht) f hf))]
    · obtain ⟨t, ht, rfl⟩ := List.mem_map.mp hth
      rw [List.mem_range] at ht
      unfold gradOut at hact
      dsimp only at hact
      split_ifs at hact with hj hl
      · simp only [List.mem_cons, List.mem_append, List.not_mem_nil, or_false] at hact
        rcases hact with rfl | ((rfl | rfl) | hact) | rfl
        · exact LocalB.emitB (fun m m' hmm => by rw [hmm _ (Or.inl (hreg t 1))])
        · exact LocalB.setB (hreg t 5) (fun _ _ _ => rfl)
        · exact LocalB.setB (hreg t 6) (fun _ _ _ => rfl)
        · obtain ⟨kk, hkk, hact⟩ := List.mem_flatMap.mp hact
          rw [List.mem_range] at hkk
          refine hkah _ _ _ _ (fun m m' hmm => ?_) act hact
          rw [Nat.add_assoc, hmm _ (Or.inl (hacc _ (h.mk_lt (h.gid_lt ht) hkk) _ hl))]
        · exact LocalB.emitB (fun m m' hmm => by rw [hmm _ (Or.inl (hreg t 5))])
      · rw [List.mem_singleton] at hact
        subst hact
        exact LocalB.emitB (fun m m' hmm => by rw [hmm _ (Or.inl (hreg t 1))])
      · cases hact

/-- **C86** (shared memory).  For all accepted sizes, in every schedule of an
iteration, both kernels stay inside the shared memory the host code allocates:
what they do does not depend on memory beyond it, and they do not change it. -/
theorem C86_shared_memory (I : ProjIn α) (hK : projBasisOk I.K = true) (hf : projFeatOk I.nf = true)
    (g : ℕ → α) (it : ℕ) :
    (∀ p, Phased (projPhases I (projCfg I) it) p → ∀ m m' : ProjAddr → α,
      (∀ i < 64 * (min 8 I.nf + 1), m (sh i) = m' (sh i)) → (∀ t r, m (reg t r) = m' (reg t r)) →
      (runB m p).2 = (runB m' p).2 ∧ ∀ i, 64 * (min 8 I.nf + 1) ≤ i → (runB m p).1 (sh i) = m (sh i)) ∧
    (∀ p, Phased (gradPhases I (projCfg I) g it) p → ∀ m m' : ProjAddr → α,
      (∀ i < min 8 I.nf * (64 + 64 / I.K + I.K), m (sh i) = m' (sh i)) → (∀ t r, m (reg t r) = m' (reg t r)) →
      (runB m p).2 = (runB m' p).2 ∧
        ∀ i, min 8 I.nf * (64 + 64 / I.K + I.K) ≤ i → (runB m p).1 (sh i) = m (sh i)) := by
  obtain ⟨hc, hd⟩ := projCfg_ok I hK hf
  refine ⟨?_, ?_⟩
  · intro p hp m m' h1 h2
    have hl := projPhases_local I hc it p hp
    refine ⟨(runB_dep m m' p hl ?_).2, fun i hi => runB_frame m p hl _ ?_⟩
    · rintro a ((⟨i, hi, rfl⟩ | ⟨t, r, rfl⟩) | ha)
      · exact h1 i hi
      · exact h2 t r
      · exact absurd ha (Set.notMem_empty a)
    · rintro (⟨j, hj, e⟩ | ⟨t, r, e⟩)
      · have e := sh.inj e
        have hj : j < 64 * (min 8 I.nf + 1) := hj
        omega
      · cases e
  · intro p hp m m' h1 h2
    have hl := gradPhases_local I hc g it p hp
    refine ⟨(runB_dep m m' p hl ?_).2, fun i hi => runB_frame m p hl _ ?_⟩
    · rintro a ((⟨i, hi, rfl⟩ | ⟨t, r, rfl⟩) | ha)
      · exact h1 i hi
      · exact h2 t r
      · exact absurd ha (Set.notMem_empty a)
    · rintro (⟨j, hj, e⟩ | ⟨t, r, e⟩)
      · have e := sh.inj e
        have hj : j < min 8 I.nf * (64 + 64 / I.K + I.K) := hj
        omega
      · cases e

/-- **C86** (outputs).  With valid indices every write of the forward kernel and
every atomic addition of the gradient kernel is inside the output arrays. -/
theorem C86_output_bounds (I : ProjIn α) (N P : ℕ) (hv : I.Valid N P) (hK : projBasisOk I.K = true)
    (hf : projFeatOk I.nf = true) (g : ℕ → α) (TB b : ℕ) :
    (∀ eff, ProjBlock I (projCfg I) TB b eff → ∀ w ∈ eff, w.1 < I.S * I.nf * I.K) ∧
    (∀ eff, GradBlock I (projCfg I) g TB b eff → ∀ w ∈ eff,
      (∀ i, w.1 = Sum.inl i → i < P * I.K) ∧ (∀ i, w.1 = Sum.inr i → i < N * I.nf)) := by
  obtain ⟨hc, hd⟩ := projCfg_ok I hK hf
  have hnf : 0 < I.nf := by
    have : 0 < I.nf ∧ (I.nf < 8 ∨ I.nf % 8 = 0) := by simpa [projFeatOk] using hf
    exact this.1
  have hblk := feat_blocks hd
  have hnb : 0 < I.nf / (projCfg I).gf := Nat.div_pos (Nat.le_of_dvd hnf hd) hc.gf_pos
  have hsam : ∀ it ∈ strideLoop TB (I.total (projCfg I)) b, I.sample (projCfg I) it < I.S := by
    intro it hit
    unfold ProjIn.sample
    rw [Nat.div_lt_iff_lt_mul hnb]
    exact strideLoop_lt hit
  have hoff : ∀ it l, l < (projCfg I).gf → I.off (projCfg I) it + l < I.nf := by
    intro it l hl
    unfold ProjIn.off
    conv_rhs => rw [← hblk]
    exact sh_mul_add_lt hl (Nat.mod_lt _ hnb)
  refine ⟨?_, ?_⟩
  · rintro eff ⟨m, p, hp, rfl⟩ w hw
    rw [(iters_run _ _ (fun it p hp m => projPhases_run I hc it p hp m) _ p hp m).mem_iff, List.mem_flatMap] at hw
    obtain ⟨it, hit, hw⟩ := hw
    unfold projWrites at hw
    rw [List.mem_flatMap] at hw
    obtain ⟨t, ht, hw⟩ := hw
    obtain ⟨f', hf', rfl⟩ := List.mem_map.mp hw
    rw [List.mem_range] at ht hf'
    have h1 := sh_mul_add_lt (hoff it f' hf') (hsam it hit)
    have h2 := sh_mul_add_lt ht h1
    have e : I.sample (projCfg I) it * I.nf * (projCfg I).K + (I.off (projCfg I) it + f') * (projCfg I).K + t =
        (I.sample (projCfg I) it * I.nf + (I.off (projCfg I) it + f')) * (projCfg I).K + t := by ring
    simp only
    rw [e]
    exact h2
  · rintro eff ⟨m, p, hp, rfl⟩ w hw
    rw [(iters_run _ _ (fun it p hp m => gradPhases_run I hc g it p hp m) _ p hp m).mem_iff, List.mem_flatMap] at hw
    obtain ⟨it, hit, hw⟩ := hw
    unfold iterAdds at hw
    rw [List.mem_flatMap] at hw
    obtain ⟨j, hj, hw⟩ := hw
    rw [List.mem_flatMap] at hw
    obtain ⟨l, hl, hw⟩ := hw
    rw [List.mem_range] at hl
    obtain ⟨v1, v2⟩ := hv _ (hsam it hit) j hj
    unfold gradAdds at hw
    rcases List.mem_cons.mp hw with rfl | hw
    · refine ⟨fun i hi => ?_, fun i hi => by cases hi⟩
      rw [← Sum.inl.inj hi]
      exact sh_mul_add_lt hl v1
    · split_ifs at hw with hlt
      · rw [List.mem_singleton] at hw
        subst hw
        refine ⟨fun i hi => (by cases hi), fun i hi => ?_⟩
        rw [← Sum.inr.inj hi, Nat.add_assoc]
        exact sh_mul_add_lt (hoff it l hlt) v2
      · cases hw

end

/-! ### non-vacuity -/

/-- Two centres with two neighbours each among two points, eight basis functions,
one feature. -/
abbrev exPairs : List (Fin 2 × Fin 2) := [(0, 0), (1, 0), (0, 1), (1, 1)]

example : RangesDelimit [2, 4] exPairs ∧ projBasisOk 8 = true ∧ projFeatOk 1 = true ∧
    (∃ out, ProjFwd (projArgs exPairs (fun i => [2, 4].getD i 0)
      (fun j (k : Fin 8) => (j.val + k.val : ℚ)) (fun i (_ : Fin 1) => (i.val + 1 : ℚ)) : ProjIn ℚ) 3 out) ∧
    basisProj exPairs (fun (j : Fin 4) (k : Fin 8) => (j.val + k.val : ℚ)) (fun (i : Fin 2) (_ : Fin 1) => (i.val + 1 : ℚ))
      1 0 5 = 23 := by
  refine ⟨⟨rfl, by decide, rfl, by decide⟩, rfl, rfl, exists_projFwd _ _, by decide +kernel⟩

/-- The hypotheses of the gradient theorem are met, with runs of both
operations. -/
example : ∃ I : ProjIn ℝ, I.Valid 2 4 ∧ projBasisOk I.K = true ∧ projFeatOk I.nf = true ∧ 0 < I.S ∧
    rangeIdx I.ends 1 = [2, 3] ∧
    (∀ q : (Fin (4 * I.K) → ℝ) × (Fin (2 * I.nf) → ℝ),
      ∃ out, ProjFwd { I with basis := gatherD q.1, feats := gatherD q.2 } 3 out) ∧
    ∃ out, ProjGrad I (fun i => i) 3 out := by
  refine ⟨⟨2, 16, 8, fun i => i, fun i => i, fun j => (j % 2, j / 2), fun i => 2 * (i + 1)⟩, ?_, rfl, rfl,
    by decide, by decide, fun q => exists_projFwd _ _, exists_projGrad _ _ _⟩
  intro s hs j hj
  unfold rangeIdx at hj
  rw [List.mem_map] at hj
  obtain ⟨k, hk, rfl⟩ := hj
  rw [List.mem_range] at hk
  simp only at hs hk ⊢
  refine ⟨?_, Nat.mod_lt _ (by decide)⟩
  unfold rangeStart at *
  simp only at hk ⊢
  split_ifs at * <;> omega

end PC
