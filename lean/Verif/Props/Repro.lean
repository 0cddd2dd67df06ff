import Verif.Rounded
import Verif.Props.CudaProj
import Verif.Props.CudaStore
import Verif.Props.FloatSearch
import Mathlib.Tactic.IntervalCases

/-!
# C127: results that do not depend on the schedule, in any arithmetic
-/

set_option linter.unusedVariables false
set_option linter.unusedSectionVars false

namespace PC

section
variable {α : Type*} [Zero α] [Add α] [Sub α] [Mul α]

/-- Writes in two orders leave the same memory if all writes to an address have the same value. -/
theorem runWrites_perm {A V : Type*} [DecidableEq A] (m : A → V) {tr tr' L : List (A × V)} (h : tr.Perm L) (h' : tr'.Perm L)
    (hL : ∀ w ∈ L, ∀ w' ∈ L, w.1 = w'.1 → w.2 = w'.2) : runWrites m tr = runWrites m tr' := by
  funext a
  by_cases hx : ∃ w ∈ L, w.1 = a
  · obtain ⟨w, hw, rfl⟩ := hx
    rw [runWrites_mem m tr w.1 w.2 (h.mem_iff.mpr hw) (fun x hx e => hL x (h.mem_iff.mp hx) w hw e),
      runWrites_mem m tr' w.1 w.2 (h'.mem_iff.mpr hw) (fun x hx e => hL x (h'.mem_iff.mp hx) w hw e)]
  · push Not at hx
    rw [runWrites_not_mem m tr a (fun w hw => hx w (h.mem_iff.mp hw)),
      runWrites_not_mem m tr' a (fun w hw => hx w (h'.mem_iff.mp hw))]

/-- The writes of all blocks. -/
theorem projFwd_writesA (I : ProjIn α) (hK : projBasisOk I.K = true) (hf : projFeatOk I.nf = true) (W : ℕ)
    (hW : 0 < W) (out : ℕ → α) (ho : ProjFwd I W out) :
    ∃ tr : List (ℕ × α), tr.Perm ((List.range (I.total (projCfg I))).flatMap (projWritesA I (projCfg I))) ∧
      out = runWrites (fun _ => 0) tr := by
  obtain ⟨hc, hd⟩ := projCfg_ok I hK hf
  obtain ⟨effs, tr, hlen, hb, hi, rfl⟩ := ho
  rcases Nat.eq_zero_or_pos (I.total (projCfg I)) with h0 | h0
  · rw [h0] at hlen ⊢
    have he : effs = [] := by
      rw [← List.length_eq_zero_iff, hlen]
      unfold launchBlocks
      rw [if_pos hW]
    subst he
    refine ⟨tr, ?_, rfl⟩
    exact hi.perm
  · refine ⟨tr, blocks_run (launchBlocks_pos hW h0) _ effs hlen ?_ hi, rfl⟩
    intro b e he
    obtain ⟨m, p, hp, rfl⟩ := hb b e he
    rw [← hlen]
    exact iters_run _ _ (fun it p hp m => projPhases_runA I hc it p hp m) _ p hp m

/-- Different writes go to different places. -/
theorem projWritesA_consistent (I : ProjIn α) (hK : projBasisOk I.K = true) (hf : projFeatOk I.nf = true) :
    ∀ w ∈ (List.range (I.total (projCfg I))).flatMap (projWritesA I (projCfg I)),
    ∀ w' ∈ (List.range (I.total (projCfg I))).flatMap (projWritesA I (projCfg I)), w.1 = w'.1 → w.2 = w'.2 := by
  obtain ⟨hc, hd⟩ := projCfg_ok I hK hf
  generalize projCfg I = c at *
  intro w hw w' hw' e
  obtain ⟨it, hit, hw⟩ := List.mem_flatMap.mp hw
  obtain ⟨it', hit', hw'⟩ := List.mem_flatMap.mp hw'
  obtain ⟨t, ht, hw⟩ := List.mem_flatMap.mp hw
  obtain ⟨t', ht', hw'⟩ := List.mem_flatMap.mp hw'
  obtain ⟨f, hf, rfl⟩ := List.mem_map.mp hw
  obtain ⟨f', hf', rfl⟩ := List.mem_map.mp hw'
  rw [List.mem_range] at hit hit' ht ht' hf hf'
  have hnb : 0 < I.nf / c.gf := by
    by_contra h0
    have : I.nf / c.gf = 0 := Nat.eq_zero_of_not_pos h0
    unfold ProjIn.total at hit
    rw [this, Nat.mul_zero] at hit
    omega
  have hblk := feat_blocks hd
  have hoff : ∀ it f', f' < c.gf → I.off c it + f' < I.nf := by
    intro it f' hf'
    unfold ProjIn.off
    conv_rhs => rw [← hblk]
    exact sh_mul_add_lt hf' (Nat.mod_lt _ hnb)
  simp only at e ⊢
  have e' : (I.sample c it * I.nf + (I.off c it + f)) * c.K + t = (I.sample c it' * I.nf + (I.off c it' + f')) * c.K + t' := by
    rw [Nat.add_mul, Nat.add_mul (I.sample c it' * I.nf)]
    exact e
  obtain ⟨h1, h2⟩ := sh_mul_add_inj ht ht' e'
  obtain ⟨h3, h4⟩ := sh_mul_add_inj (hoff it f hf) (hoff it' f' hf') h1
  unfold ProjIn.off at h4
  obtain ⟨h5, h6⟩ := sh_mul_add_inj hf hf' h4
  have hit : it = it' := by
    unfold ProjIn.sample at h3
    rw [← Nat.div_add_mod it (I.nf / c.gf), ← Nat.div_add_mod it' (I.nf / c.gf), h3, h5]
  rw [hit, h2, h6]

/-- **C127, projection.** In any arithmetic (no laws are assumed of the operations): two runs of the projection with the
same inputs, whatever their schedules, the contents of shared memory before and the numbers of resident blocks, return the
same tensor. -/
theorem C127_projection (I : ProjIn α) (hK : projBasisOk I.K = true) (hf : projFeatOk I.nf = true) (W W' : ℕ) (hW : 0 < W)
    (hW' : 0 < W') (out out' : ℕ → α) (h : ProjFwd I W out) (h' : ProjFwd I W' out') : out = out' := by
  obtain ⟨tr, hp, rfl⟩ := projFwd_writesA I hK hf W hW out h
  obtain ⟨tr', hp', rfl⟩ := projFwd_writesA I hK hf W' hW' out' h'
  exact runWrites_perm _ hp hp' (projWritesA_consistent I hK hf)

/-- The value computed for sample `s`, feature `f` and basis function `k`. -/
theorem projFwd_valA (I : ProjIn α) (hK : projBasisOk I.K = true) (hf : projFeatOk I.nf = true) (W : ℕ) (hW : 0 < W)
    (out : ℕ → α) (h : ProjFwd I W out) (s f k : ℕ) (hs : s < I.S) (hfn : f < I.nf) (hk : k < I.K) :
    ∃ it f', I.sample (projCfg I) it = s ∧ I.off (projCfg I) it + f' = f ∧
    out ((s * I.nf + f) * I.K + k) = projValA I (projCfg I) it f' k := by
  obtain ⟨hc, hd⟩ := projCfg_ok I hK hf
  obtain ⟨tr, hp, rfl⟩ := projFwd_writesA I hK hf W hW out h
  have hcons := projWritesA_consistent I hK hf
  have hcK : (projCfg I).K = I.K := rfl
  set c := projCfg I with hcdef
  have hgp := hc.gf_pos
  have hblk := feat_blocks hd
  have hnb : 0 < I.nf / c.gf := Nat.div_pos (Nat.le_of_dvd (by omega) hd) hgp
  have hq : f / c.gf < I.nf / c.gf := by
    rw [Nat.div_lt_iff_lt_mul hgp, hblk]; exact hfn
  have e1 : I.sample c (s * (I.nf / c.gf) + f / c.gf) = s := by
    unfold ProjIn.sample
    rw [Nat.add_comm, Nat.add_mul_div_right _ _ hnb, Nat.div_eq_of_lt hq, Nat.zero_add]
  have e2 : I.off c (s * (I.nf / c.gf) + f / c.gf) = f / c.gf * c.gf := by
    unfold ProjIn.off
    rw [Nat.add_comm, Nat.add_mul_mod_self_right, Nat.mod_eq_of_lt hq]
  have e3 : f / c.gf * c.gf + f % c.gf = f := by
    rw [Nat.mul_comm]; exact Nat.div_add_mod f c.gf
  have hmem : ((s * I.nf + f) * I.K + k, projValA I c (s * (I.nf / c.gf) + f / c.gf) (f % c.gf) k) ∈
      (List.range (I.total c)).flatMap (projWritesA I c) := by
    rw [List.mem_flatMap]
    refine ⟨s * (I.nf / c.gf) + f / c.gf, ?_, ?_⟩
    · rw [List.mem_range]
      unfold ProjIn.total
      exact sh_mul_add_lt hq hs
    · unfold projWritesA
      rw [List.mem_flatMap]
      refine ⟨k, List.mem_range.mpr hk, List.mem_map.mpr ⟨f % c.gf, List.mem_range.mpr (Nat.mod_lt _ hgp), ?_⟩⟩
      rw [e1, e2, e3, hcK, Nat.add_mul]
  refine ⟨_, f % c.gf, e1, by rw [e2, e3], ?_⟩
  exact runWrites_mem _ _ _ _ (hp.mem_iff.mpr hmem) (fun w hw e => hcons w (hp.mem_iff.mp hw) _ hmem e)

end

/-! ### density -/

section
variable {α : Type*} [Zero α] [One α] [Add α] [Sub α] [Mul α] {D : ℕ}

theorem pdfFwd_eqA (I : PdfInA D α) (mode B W : ℕ) (hB : 0 < B) (hW : 0 < W) (out : ℕ → α) (h : PdfFwdA I mode B W out)
    (i : ℕ) (hi : i < I.n) : out i = (kahan ((rangeIdx I.ends i).map (pdfLocalA I (pdfInvBwA I mode) 1 i))).1 := by
  obtain ⟨old, tr, hint, rfl⟩ := h
  have hp := strideThreads_perm (pdfThreads_pos (by omega) hB hW) _ hint
  have hm : ∀ w, w ∈ tr ↔ ∃ i < I.n, w = (i, (kahan ((rangeIdx I.ends i).map
      (pdfLocalA I (pdfInvBwA I mode) 1 i))).1) := by
    intro w
    rw [hp.mem_iff, List.mem_flatMap]
    simp only [pdfBodyA, List.mem_range, List.mem_singleton]
  apply runWrites_mem
  · exact (hm _).mpr ⟨i, hi, rfl⟩
  · intro w hw e
    obtain ⟨i', _, rfl⟩ := (hm w).mp hw
    simp only at e
    subst e
    rfl

/-- **C127, density.** In any arithmetic, and with any function in the place of `exp`: two runs of the density
estimation with the same inputs return the same densities. -/
theorem C127_density (I : PdfInA D α) (mode B W W' : ℕ) (hB : 0 < B) (hW : 0 < W) (hW' : 0 < W') (out out' : ℕ → α)
    (h : PdfFwdA I mode B W out) (h' : PdfFwdA I mode B W' out') : ∀ i < I.n, out i = out' i := by
  intro i hi
  rw [pdfFwd_eqA I mode B W hB hW out h i hi, pdfFwd_eqA I mode B W' hB hW' out' h' i hi]

end

/-- With exact arithmetic this is the model of C65. -/
theorem pdfFwdA_exact {D : ℕ} (I : PdfIn D) (mode B W : ℕ) (out : ℕ → ℝ) :
    PdfFwdA I.toA mode B W out ↔ PdfFwd I mode B W out := by
  have : pdfBodyA I.toA mode = pdfBody I mode := by
    funext i
    unfold pdfBodyA pdfBody
    have hw : pdfInvBwA I.toA mode = pdfInvBw mode I.invBw I.n := by
      unfold pdfInvBwA pdfInvBw
      rfl
    rw [hw]
    rfl
  unfold PdfFwdA PdfFwd
  rw [this]
  rfl

/-! ### rounding to 24 bits -/

theorem round24_eq {x : ℝ} (e n : ℤ) (h1 : (2 : ℝ) ^ e ≤ |x|) (h2 : |x| < (2 : ℝ) ^ (e + 1))
    (h3 : (n : ℝ) - 1 / 2 ≤ x * (2 : ℝ) ^ (23 - e)) (h4 : x * (2 : ℝ) ^ (23 - e) < n + 1 / 2) :
    round24 x = n * (2 : ℝ) ^ (e - 23) := by
  have hx : 0 < |x| := lt_of_lt_of_le (by positivity) h1
  have he : Int.log 2 |x| = e := by
    apply le_antisymm
    · have := (Int.lt_zpow_iff_log_lt (b := 2) (by norm_num) hx (x := e + 1)).mp (by exact_mod_cast h2)
      omega
    · exact (Int.zpow_le_iff_le_log (b := 2) (by norm_num) hx).mp (by exact_mod_cast h1)
  unfold round24
  rw [he]
  congr 2
  rw [round_eq, Int.floor_eq_iff]
  constructor <;> linarith

theorem round24_zero : round24 0 = 0 := by simp [round24]

theorem r24_a : round24 33554432 = 33554432 := by
  rw [round24_eq 25 8388608 (by norm_num) (by norm_num) (by norm_num) (by norm_num)]; norm_num
theorem r24_b : round24 (3 / 2) = 3 / 2 := by
  rw [round24_eq 0 12582912 (by norm_num) (by norm_num [abs_of_pos]) (by norm_num) (by norm_num)]; norm_num
theorem r24_c : round24 3 = 3 := by
  rw [round24_eq 1 12582912 (by norm_num) (by norm_num) (by norm_num) (by norm_num)]; norm_num
theorem r24_ab : round24 (33554432 + 3 / 2) = 33554432 := by
  rw [round24_eq 25 8388608 (by norm_num) (by norm_num) (by norm_num) (by norm_num)]; norm_num
theorem r24_ca : round24 (3 + 33554432) = 33554436 := by
  rw [round24_eq 25 8388609 (by norm_num) (by norm_num) (by norm_num) (by norm_num)]; norm_num
theorem r24_d : round24 33554436 = 33554436 := by
  rw [round24_eq 25 8388609 (by norm_num) (by norm_num) (by norm_num) (by norm_num)]; norm_num

namespace Rounded
variable {fl : ℝ → ℝ}
theorem zero_def : (0 : Rounded fl) = mk 0 := rfl
theorem add_mk (a b : ℝ) : (mk a : Rounded fl) + mk b = mk (fl (a + b)) := rfl
theorem sub_mk (a b : ℝ) : (mk a : Rounded fl) - mk b = mk (fl (a - b)) := rfl
theorem mul_mk (a b : ℝ) : (mk a : Rounded fl) * mk b = mk (fl (a * b)) := rfl
theorem mk_inj {a b : ℝ} (h : (mk a : Rounded fl) = mk b) : a = b := h
end Rounded

open Rounded

/-! ### atomic additions -/

/-- The value of an address is the sum of the values added there, in the order of the trace. -/
theorem runAtomics_fold {α A : Type*} [Zero α] [Add α] [Sub α] [DecidableEq A] (m : A → α) (tr : List (A × α)) (a : A) :
    runAtomics m tr a = ((tr.filter (fun w => w.1 = a)).map Prod.snd).foldl (· + ·) (m a) := by
  unfold runAtomics
  induction tr generalizing m with
  | nil => rfl
  | cons w tr ih =>
    rw [List.foldl_cons, ih]
    by_cases h : w.1 = a
    · rw [List.filter_cons_of_pos (by simpa using h), ← h, Function.update_self]; rfl
    · rw [List.filter_cons_of_neg (by simpa using h), Function.update_of_ne (fun e => h e.symm)]

/-- A thread may run to its end first. -/
theorem Interleave.prefix {α : Type*} (t : ℕ) (e : List α) :
    ∀ (ps : List (List α)) (tr : List α), ps[t]? = some e → Interleave (ps.set t []) tr → Interleave ps (e ++ tr) := by
  induction e with
  | nil =>
    intro ps tr h hi
    have : ps.set t [] = ps := by
      obtain ⟨h1, h2⟩ := List.getElem?_eq_some_iff.mp h
      rw [← h2, List.set_getElem_self]
    rwa [this] at hi
  | cons a e ih =>
    intro ps tr h hi
    refine .step t a e h (ih _ _ ?_ ?_)
    · obtain ⟨h1, h2⟩ := List.getElem?_eq_some_iff.mp h
      rw [List.getElem?_set_self h1]
    · rwa [List.set_set]

theorem interleave3 {α : Type*} (a b c : List α) : Interleave [a, b, c] (a ++ (b ++ c)) ∧
    Interleave [a, b, c] (b ++ (c ++ a)) := by
  constructor
  · refine Interleave.prefix 0 a _ _ rfl (Interleave.prefix 1 b _ _ rfl ?_)
    have := Interleave.prefix 2 c [[], [], c] [] rfl (.done (by simp))
    rwa [List.append_nil] at this
  · refine Interleave.prefix 1 b _ _ rfl (Interleave.prefix 2 c _ _ rfl ?_)
    have := Interleave.prefix 0 a [a, [], []] [] rfl (.done (by simp))
    rwa [List.append_nil] at this

/-! ### gradients -/

theorem kahan_one (v : ℝ) (hv : round24 v = v) (n : ℕ) :
    kahan ((mk v : Rounded round24) :: List.replicate n 0) = (mk v, 0) := by
  have h1 : kahanStep ((0, 0) : Rounded round24 × Rounded round24) (mk v) = (mk v, 0) := by
    simp only [kahanStep, kahanStepFl, id, zero_def, sub_mk, add_mk, sub_zero, zero_add, hv, sub_self, round24_zero]
  have h2 : kahanStep ((mk v, 0) : Rounded round24 × Rounded round24) 0 = (mk v, 0) := by
    simp only [kahanStep, kahanStepFl, id, zero_def, sub_mk, add_mk, sub_zero, add_zero, hv, sub_self, round24_zero]
  unfold kahan
  rw [List.foldl_cons, h1]
  induction n with
  | zero => rfl
  | succ n ih => rw [List.replicate_succ, List.foldl_cons, h2, ih]

/-- Witness: one point, neighbour of three samples; one feature, eight basis functions with value 1. -/
noncomputable abbrev reproIn : ProjIn (Rounded round24) where
  S := 3
  nf := 1
  K := 8
  basis := fun _ => mk 1
  feats := fun _ => mk 1
  nb := fun j => (0, j)
  ends := fun s => s + 1

/-- The upstream gradients of the first basis function. -/
noncomputable def reproUp (s : ℕ) : ℝ := if s = 0 then 33554432 else 3 / 2

noncomputable def reproGrad (i : ℕ) : Rounded round24 := if i % 8 = 0 then mk (reproUp (i / 8)) else 0

theorem reproUp_repr (s : ℕ) : round24 (reproUp s) = reproUp s := by
  unfold reproUp
  split_ifs
  · exact r24_a
  · exact r24_b

theorem reproAdds (it : ℕ) : (iterAddsA reproIn (projCfg reproIn) reproGrad it).filter (fun w => w.1 = Sum.inr 0) =
    [(Sum.inr 0, mk (reproUp it))] := by
  have hs : reproIn.sample (projCfg reproIn) it = it := by
    show it / (1 / min 8 1) = it
    norm_num
  have ho : reproIn.off (projCfg reproIn) it = 0 := by
    show it % (1 / min 8 1) * min 8 1 = 0
    norm_num [Nat.mod_one]
  have hr : rangeIdx reproIn.ends it = [it] := by
    unfold rangeIdx rangeStart
    rcases it with _ | it
    · rfl
    · simp
  have hk : ∀ l, (gradAddsA reproIn (projCfg reproIn) reproGrad it it l).filter (fun w => w.1 = Sum.inr 0) =
      if l = 0 then [(Sum.inr 0, mk (reproUp it))] else [] := by
    intro l
    unfold gradAddsA
    rw [hs, ho]
    rw [List.filter_cons_of_neg (by simp)]
    have hg : (projCfg reproIn).gf = 1 := rfl
    rw [hg]
    rcases l with _ | l
    · rw [if_pos (by omega), if_pos rfl]
      rw [List.filter_cons_of_pos (by simp), List.filter_nil]
      have : ((List.range (projCfg reproIn).K).map (fun kk =>
          reproGrad (it * reproIn.nf * (projCfg reproIn).K + 0 * (projCfg reproIn).K + (0 * (projCfg reproIn).K + kk)) *
            reproIn.basis (it * (projCfg reproIn).K + kk))) = (mk (reproUp it) : Rounded round24) :: List.replicate 7 0 := by
        have hz : ∀ kk, 0 < kk → kk < 8 → reproGrad (it * 8 + kk) = 0 := by
          intro kk h1 h2
          unfold reproGrad
          rw [if_neg (by omega)]
        have h0 : reproGrad (it * 8) = mk (reproUp it) := by
          unfold reproGrad
          rw [if_pos (by omega), Nat.mul_div_cancel _ (by norm_num)]
        have hm0 : (0 : Rounded round24) * mk 1 = 0 := by
          rw [zero_def, mul_mk, zero_mul, round24_zero]
        have hm1 : (mk (reproUp it) : Rounded round24) * mk 1 = mk (reproUp it) := by
          rw [mul_mk, mul_one, reproUp_repr]
        show ((List.range 8).map (fun kk => reproGrad (it * 1 * 8 + 0 * 8 + (0 * 8 + kk)) * mk 1)) = _
        simp only [mul_one, zero_mul, add_zero, zero_add]
        show [reproGrad (it * 8 + 0) * mk 1, _, _, _, _, _, _, _] = _
        simp only [hz 1 (by norm_num) (by norm_num), hz 2 (by norm_num) (by norm_num), hz 3 (by norm_num) (by norm_num),
          hz 4 (by norm_num) (by norm_num), hz 5 (by norm_num) (by norm_num), hz 6 (by norm_num) (by norm_num),
          hz 7 (by norm_num) (by norm_num), add_zero, h0, hm0, hm1]
        rfl
      rw [this, kahan_one _ (reproUp_repr it)]
      rfl
    · rw [if_neg (by omega), if_neg (by omega), List.filter_nil]
  unfold iterAddsA
  rw [hs, hr, List.flatMap_singleton, List.filter_flatMap]
  simp only [hk]
  rfl

/-- The gradient operation does not have a result determined by its inputs: with numbers of 24 bits two runs on the same
inputs, with the same number of blocks, return different gradients of the features. -/
theorem C127_gradient_false : ¬ ∀ (I : ProjIn (Rounded round24)) (g : ℕ → Rounded round24) (W : ℕ)
    (out out' : ℕ ⊕ ℕ → Rounded round24), projBasisOk I.K = true → projFeatOk I.nf = true → 0 < W →
    ProjGrad I g W out → ProjGrad I g W out' → out = out' := by
  intro h
  have hb : ∀ b, ∃ e, GradBlock reproIn (projCfg reproIn) reproGrad 3 b e := by
    intro b
    obtain ⟨p, hp⟩ := Phased.exists_seq
      ((strideLoop 3 (reproIn.total (projCfg reproIn)) b).flatMap (gradPhases reproIn (projCfg reproIn) reproGrad))
    exact ⟨_, fun _ => 0, p, hp, rfl⟩
  choose e he using hb
  obtain ⟨hc, hd⟩ := projCfg_ok reproIn rfl rfl
  have hf : ∀ b < 3, (e b).filter (fun w => w.1 = Sum.inr 0) = [(Sum.inr 0, mk (reproUp b))] := by
    intro b hb
    obtain ⟨m, p, hp, hpe⟩ := he b
    have := iters_run _ _ (fun it p hp m => gradPhases_runA reproIn hc reproGrad it p hp m) _ p hp m
    rw [← hpe] at this
    have hl : strideLoop 3 (reproIn.total (projCfg reproIn)) b = [b] := by
      have ht : reproIn.total (projCfg reproIn) = 3 := rfl
      rw [ht]
      interval_cases b <;> decide +kernel
    rw [hl, List.flatMap_singleton] at this
    have := this.filter (fun w => w.1 = Sum.inr 0)
    rw [reproAdds] at this
    exact List.perm_singleton.mp this
  have hrun : ∀ tr, Interleave [e 0, e 1, e 2] tr → ProjGrad reproIn reproGrad 3 (runAtomics (fun _ => 0) tr) := by
    intro tr htr
    refine ⟨_, tr, rfl, ?_, htr, rfl⟩
    intro b x hx
    have : b < 3 := (List.getElem?_eq_some_iff.mp hx).1
    interval_cases b
    · obtain rfl : e 0 = x := by simpa using hx
      exact he 0
    · obtain rfl : e 1 = x := by simpa using hx
      exact he 1
    · obtain rfl : e 2 = x := by simpa using hx
      exact he 2
  obtain ⟨i1, i2⟩ := interleave3 (e 0) (e 1) (e 2)
  have := congrFun (h reproIn reproGrad 3 _ _ rfl rfl (by norm_num) (hrun _ i1) (hrun _ i2)) (Sum.inr 0)
  rw [runAtomics_fold, runAtomics_fold] at this
  simp only [List.filter_append, hf 0 (by norm_num), hf 1 (by norm_num), hf 2 (by norm_num), reproUp] at this
  simp only [List.cons_append, List.nil_append, List.map_cons, List.map_nil, List.foldl_cons, List.foldl_nil, if_pos,
    if_neg one_ne_zero, if_neg two_ne_zero, zero_def, add_mk, zero_add, r24_a, r24_b, r24_ab] at this
  have e3 : (3 / 2 : ℝ) + 3 / 2 = 3 := by norm_num
  rw [e3, r24_c, r24_ca] at this
  have := mk_inj this
  norm_num at this

/-! ### search, then projection -/

theorem steps_append {S L : Type*} {T : ℕ} {step : S → L → Option (S × L)} {a b c : S × (Fin T → L)}
    (h : Steps step a b) (h' : Steps step b c) : Steps step a c := by
  induction h' with
  | refl => exact h
  | tail _ t hs ih => exact .tail ih t hs

/-- Storing one pair. -/
def storeOne (m : StoreMem) (x : ℕ × ℕ) : StoreMem :=
  ⟨Function.update m.cnt x.2 (m.cnt x.2 + 1), m.writes ++ [(m.cnt x.2, x)]⟩

/-- A thread may run to its end. -/
theorem storeThread_run {T : ℕ} (t : Fin T) (l : List (ℕ × ℕ)) : ∀ (m : StoreMem) (ls : Fin T → StoreThread),
    ls t = ⟨l, none⟩ → Steps storeStep (m, ls) (l.foldl storeOne m, Function.update ls t ⟨[], none⟩) := by
  induction l with
  | nil =>
    intro m ls h
    rw [← h, Function.update_eq_self]
    exact .refl _
  | cons x l ih =>
    intro m ls h
    have s1 : Steps storeStep (m, ls) (_, Function.update ls t ⟨l, some (m.cnt x.2, x)⟩) :=
      .tail (.refl _) t (s' := ⟨Function.update m.cnt x.2 (m.cnt x.2 + 1), m.writes⟩) (by rw [h]; rfl)
    have s2 : Steps storeStep (m, ls) (storeOne m x, Function.update (Function.update ls t ⟨l, some (m.cnt x.2, x)⟩) t
        ⟨l, none⟩) := .tail s1 t (by rw [Function.update_self]; rfl)
    rw [Function.update_idem] at s2
    have s3 := ih (storeOne m x) (Function.update ls t ⟨l, none⟩) (Function.update_self ..)
    rw [Function.update_idem] at s3
    exact steps_append s2 s3

/-- Witness: one sample, one cell with three points. -/
def reproRg (i : ℕ) : ℕ × ℕ := if i = 0 then (0, 3) else (0, 0)

theorem reproProg : ∀ t : Fin 64, storeProg 1 9 64 reproRg (fun _ _ => true) t = if t.val < 3 then [(t.val, 0)] else [] := by
  decide +kernel

/-- The result if the threads `a`, `b`, `c` run in this order. -/
def reproMem (a b c : ℕ) : StoreMem := [(a, 0), (b, 0), (c, 0)].foldl storeOne ⟨fun _ => 0, []⟩

theorem reproStore (a b c : Fin 64) (hab : a ≠ b) (hac : a ≠ c) (hbc : b ≠ c)
    (hall : ∀ t : Fin 64, t.val < 3 ↔ t = a ∨ t = b ∨ t = c) :
    StoreKernel 1 9 64 reproRg (fun _ _ => true) ⟨fun _ => 0, []⟩ (reproMem a b c) := by
  have hp : ∀ t, t = a ∨ t = b ∨ t = c → storeProg 1 9 64 reproRg (fun _ _ => true) t = [(t.val, 0)] := by
    intro t ht
    rw [reproProg, if_pos ((hall t).mpr ht)]
  have s1 := storeThread_run (T := 64) a [(a.val, 0)] ⟨fun _ => 0, []⟩
    (fun t => ⟨storeProg 1 9 64 reproRg (fun _ _ => true) t, none⟩) (by rw [hp a (Or.inl rfl)])
  have s2 := steps_append s1 (storeThread_run b [(b.val, 0)] _ _ (by
    rw [Function.update_of_ne hab.symm, hp b (Or.inr (Or.inl rfl))]))
  have s3 := steps_append s2 (storeThread_run c [(c.val, 0)] _ _ (by
    rw [Function.update_of_ne hbc.symm, Function.update_of_ne hac.symm, hp c (Or.inr (Or.inr rfl))]))
  refine ⟨_, s3, ?_⟩
  intro t
  simp only
  by_cases h3 : t = c
  · subst h3; rw [Function.update_self]; rfl
  rw [Function.update_of_ne h3]
  by_cases h2 : t = b
  · subst h2; rw [Function.update_self]; rfl
  rw [Function.update_of_ne h2]
  by_cases h1 : t = a
  · subst h1; rw [Function.update_self]; rfl
  rw [Function.update_of_ne h1, reproProg, if_neg (by rw [hall]; tauto)]
  rfl

theorem reproFind (a b c : Fin 64) (hab : a ≠ b) (hac : a ≠ c) (hbc : b ≠ c)
    (hall : ∀ t : Fin 64, t.val < 3 ↔ t = a ∨ t = b ∨ t = c) :
    FindRun 1 9 1 1 1 [reproRg] (fun _ _ => true) 3 (reproMem a b c) := by
  obtain ⟨cnt, h1⟩ := exists_countPasses 1 9 64 1 (fun _ _ => true) [reproRg] (fun _ => 0)
  obtain ⟨out, tot, h2⟩ := C57_run_exists 1 1 (fun i => (cnt i : ℤ))
  obtain ⟨e1, e2⟩ := C57_scan_partial 1 1 (by norm_num) (by norm_num) (by norm_num) _ out tot h2
  have hc := C58_counts 1 9 64 1 (by norm_num) (by norm_num) _ _ _ h1 0 (by norm_num)
  have hc3 : cnt 0 = 3 := by rw [hc]; decide
  have ht : tot = 3 := by rw [e2]; simp [hc3]
  subst ht
  refine ⟨cnt, fun _ => 0, out, h1, h2, ?_, .cons (reproStore a b c hab hac hbc hall) (.nil _)⟩
  intro s hs
  rw [e1 s hs]
  obtain rfl : s = 0 := by omega
  rfl

theorem projVal_three (res : StoreMem) (x : ℕ → ℝ) (feats : ℕ → Rounded round24) (v : ℝ) (hc : res.cnt 0 = 3)
    (hf : ∀ g < 3, feats (res.out g).1 = mk (x g)) (hx : ∀ g < 3, round24 (x g) = x g)
    (hv : round24 (round24 (x 0 + x 1) + x 2) = v) (hvv : round24 v = v) :
    projValA (projAfterSearch 1 1 8 res (fun _ _ _ => mk 1) feats)
      (projCfg (projAfterSearch 1 1 8 res (fun _ _ _ => mk 1) feats)) 0 0 0 = mk v := by
  set I := projAfterSearch 1 1 8 res (fun _ _ _ => (mk 1 : Rounded round24)) feats with hI
  have hs0 : I.sample (projCfg I) 0 = 0 := Nat.zero_div _
  have hlo : I.lo (projCfg I) 0 = 0 := by
    unfold ProjIn.lo
    rw [hs0]; rfl
  have hhi : I.hi (projCfg I) 0 = 3 := by
    unfold ProjIn.hi
    rw [hs0]; exact hc
  have hG : (projCfg I).G = 8 := by
    show 64 / 8 = 8
    norm_num
  have hpass : I.passes (projCfg I) 0 = 1 := by
    unfold ProjIn.passes ProjCfg.rounded
    rw [hlo, hhi, hG]
  have hft : ∀ g, ftV I (projCfg I) 0 0 g 0 * wtV I (projCfg I) 0 0 (g * (projCfg I).K + 0) =
      mk (if g < 3 then x g else 0) := by
    intro g
    have hK : (projCfg I).K = 8 := rfl
    have hgid : (projCfg I).gid (g * (projCfg I).K + 0) = g := by
      unfold ProjCfg.gid
      rw [hK]; omega
    have hp : I.pos (projCfg I) 0 0 (g * (projCfg I).K + 0) = g := by
      unfold ProjIn.pos
      rw [hgid, hlo, Nat.zero_mul, add_zero, add_zero]
    unfold ftV wtV
    rw [hp, hlo, hhi]
    simp only [zero_mul, add_zero]
    by_cases h : g < 3
    · rw [if_pos h, if_pos h, if_pos h]
      have : I.feats ((I.nb g).1 * I.nf + I.off (projCfg I) 0) = mk (x g) := by
        show feats ((res.out g).1 * 1 + 0) = _
        rw [Nat.mul_one, Nat.add_zero, hf g h]
      rw [this]
      show mk (x g) * mk 1 = _
      rw [mul_mk, mul_one, hx g h]
    · rw [if_neg h, if_neg h, if_neg h, zero_def, mul_mk, mul_zero, round24_zero]
  unfold projValA
  rw [hpass, hG]
  have hin : ∀ g, (List.range 1).foldl (fun a k => a + ftV I (projCfg I) 0 k g 0 * wtV I (projCfg I) 0 k (g * (projCfg I).K + 0)) 0
      = mk (if g < 3 then x g else 0) := by
    intro g
    show 0 + ftV I (projCfg I) 0 0 g 0 * wtV I (projCfg I) 0 0 (g * (projCfg I).K + 0) = _
    rw [hft, zero_def, add_mk, zero_add]
    by_cases h : g < 3
    · rw [if_pos h, hx g h]
    · rw [if_neg h, round24_zero]
  simp only [hin]
  show ((((((((0 : Rounded round24) + mk (x 0)) + mk (x 1)) + mk (x 2)) + mk 0) + mk 0) + mk 0) + mk 0) + mk 0 = mk v
  simp only [zero_def, add_mk, zero_add, add_zero, hx 0 (by norm_num), hv, hvv]

/-- The neighbour search followed by the projection does not have a result determined by its inputs: with numbers of 24
bits two runs of the search on the same inputs, followed by the projection of the same features with the same values of the
basis functions for each pair, return different results. -/
theorem C127_layer_false : ¬ ∀ (S R W nf K : ℕ) (rgs : List (ℕ → ℕ × ℕ)) (hit : ℕ → ℕ → Bool) (total : ℕ)
    (res res' : StoreMem) (basis : ℕ → ℕ → ℕ → Rounded round24) (feats : ℕ → Rounded round24)
    (out out' : ℕ → Rounded round24), 0 < W → projBasisOk K = true → projFeatOk nf = true →
    FindRun S R W W W rgs hit total res → FindRun S R W W W rgs hit total res' →
    ProjFwd (projAfterSearch S nf K res basis feats) W out → ProjFwd (projAfterSearch S nf K res' basis feats) W out' →
    out = out' := by
  intro h
  let feats : ℕ → Rounded round24 := fun p => mk (reproUp p)
  obtain ⟨out, ho⟩ := exists_projFwd (projAfterSearch 1 1 8 (reproMem 0 1 2) (fun _ _ _ => mk 1) feats) 1
  obtain ⟨out', ho'⟩ := exists_projFwd (projAfterSearch 1 1 8 (reproMem 1 2 0) (fun _ _ _ => mk 1) feats) 1
  have hrun := reproFind 0 1 2 (by decide) (by decide) (by decide) (by decide)
  have hrun' := reproFind 1 2 0 (by decide) (by decide) (by decide) (by decide)
  have e := congrFun (h 1 9 1 1 8 _ _ 3 _ _ (fun _ _ _ => mk 1) feats out out' (by norm_num) rfl rfl hrun hrun' ho ho') 0
  have key : ∀ (res : StoreMem) (out : ℕ → Rounded round24),
      ProjFwd (projAfterSearch 1 1 8 res (fun _ _ _ => mk 1) feats) 1 out →
      out 0 = projValA (projAfterSearch 1 1 8 res (fun _ _ _ => mk 1) feats)
        (projCfg (projAfterSearch 1 1 8 res (fun _ _ _ => mk 1) feats)) 0 0 0 := by
    intro res out ho
    obtain ⟨it, f', h1, h2, h3⟩ := projFwd_valA _ (by rfl) (by rfl) 1 (by norm_num) out ho 0 0 0 (by exact Nat.one_pos)
      (by exact Nat.one_pos) (by exact Nat.succ_pos _)
    have hit : it = 0 := by
      change it / (1 / min 8 1) = 0 at h1
      simpa using h1
    have hf' : f' = 0 := by omega
    subst hit
    subst hf'
    exact h3
  have v1 := projVal_three (reproMem 0 1 2) reproUp feats 33554432 (by rfl) (by
    intro g hg
    interval_cases g <;> rfl) (fun g _ => reproUp_repr g) (by
      simp only [reproUp, if_pos, if_neg one_ne_zero, if_neg two_ne_zero, r24_ab]) r24_a
  have e3 : (3 / 2 : ℝ) + 3 / 2 = 3 := by norm_num
  have v2 := projVal_three (reproMem 1 2 0) (fun g => reproUp ((g + 1) % 3)) feats 33554436 (by rfl) (by
    intro g hg
    interval_cases g <;> rfl) (fun g _ => reproUp_repr _) (by
      simp [reproUp, e3, r24_c, r24_ca]) r24_d
  rw [key _ _ ho, key _ _ ho', v1, v2] at e
  have := mk_inj e
  norm_num at this

end PC
