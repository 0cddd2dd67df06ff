import Verif.CudaScanLemmas

/-!
# Lemmas about the CUDA scan: launches and host loops
-/

set_option linter.unusedVariables false
set_option linter.unusedSectionVars false

namespace PC

variable {M : Type*} [CommRing M]

open ScanAddr

/-! ### `execBlocks`, loops -/

theorem lt_execBlocks {n len c : ℕ} (hl : 0 < len) : c < execBlocks n len ↔ c * len < n := by
  unfold execBlocks
  have h1 := Nat.div_add_mod n len
  have h2 := Nat.mod_lt n hl
  have h3 : len * (n / len) = n / len * len := Nat.mul_comm _ _
  constructor
  · intro h
    by_cases hm : n % len ≠ 0
    · rw [if_pos hm] at h
      have : c * len ≤ n / len * len := Nat.mul_le_mul_right _ (by omega)
      omega
    · rw [if_neg hm] at h
      have : (c + 1) * len ≤ n / len * len := Nat.mul_le_mul_right _ (by omega)
      have e : (c + 1) * len = c * len + len := by ring
      omega
  · intro h
    by_contra hc
    push Not at hc
    by_cases hm : n % len ≠ 0
    · rw [if_pos hm] at hc
      have : (n / len + 1) * len ≤ c * len := Nat.mul_le_mul_right _ (by omega)
      have e : (n / len + 1) * len = n / len * len + len := by ring
      omega
    · rw [if_neg hm] at hc
      have : n / len * len ≤ c * len := Nat.mul_le_mul_right _ (by omega)
      omega

theorem le_execBlocks_mul {n len : ℕ} (hl : 0 < len) : n ≤ execBlocks n len * len := by
  by_contra h
  push Not at h
  have := (lt_execBlocks hl).mpr h
  omega

theorem launchBlocks_pos {W eb : ℕ} (hW : 0 < W) (he : 0 < eb) : 0 < launchBlocks W eb := by
  unfold launchBlocks; split <;> omega

/-- The loop of each thread over elements visits the chunks of `blockPhases`. -/
theorem strideLoop_block {TB EB NT : ℕ} (hT : 0 < TB) (b t : ℕ) (ht : t < NT) :
    strideLoop (TB * NT) (EB * NT) (b * NT + t) = (strideLoop TB EB b).map (fun c => c * NT + t) := by
  induction hm : EB - b using Nat.strong_induction_on generalizing b with
  | _ n ih =>
    have hN : 0 < NT := by omega
    have hiff : b * NT + t < EB * NT ↔ b < EB := by
      constructor
      · intro h
        by_contra hc
        push Not at hc
        have := Nat.mul_le_mul_right NT hc
        omega
      · intro h
        have : (b + 1) * NT ≤ EB * NT := Nat.mul_le_mul_right _ h
        have e : (b + 1) * NT = b * NT + NT := by ring
        omega
    rw [strideLoop, strideLoop.eq_def TB EB b]
    by_cases h : b < EB
    · rw [dif_pos ⟨hiff.mpr h, by positivity⟩, dif_pos ⟨h, hT⟩, List.map_cons,
        show b * NT + t + TB * NT = (b + TB) * NT + t by ring, ih (EB - (b + TB)) (by omega) (b + TB) rfl]
    · rw [dif_neg (fun h' => h (hiff.mp h'.1)), dif_neg (fun h' => h h'.1)]
      rfl

/-! ### one block -/

theorem block_spec {L N b : ℕ} (cs : List ℕ) (hnd : cs.Nodup) (hc : ∀ c ∈ cs, c * chunkLen L < N)
    {tr : List (ScanAct M)} (h : Phased (cs.flatMap (chunkPhases L N b)) tr) (m : (ScanMem M)) :
    (∀ c ∈ cs, ∀ i < chunkLen L, c * chunkLen L + i < N → runActs m tr (el (c * chunkLen L + i)) =
      ∑ x ∈ Finset.range i, m (el (c * chunkLen L + x))) ∧
    (∀ c ∈ cs, runActs m tr (cn c) = ∑ x ∈ Finset.range (min (chunkLen L) (N - c * chunkLen L)),
      m (el (c * chunkLen L + x))) ∧
    (∀ a, (∀ t, a ≠ reg b t) → (∀ i, a ≠ sh b i) → (∀ c ∈ cs, a ≠ cn c) →
      (∀ c ∈ cs, ∀ i < chunkLen L, a ≠ el (c * chunkLen L + i)) → runActs m tr a = m a) := by
  induction cs generalizing tr m with
  | nil =>
    rw [List.flatMap_nil] at h
    cases h
    exact ⟨fun c h => (List.not_mem_nil h).elim, fun c h => (List.not_mem_nil h).elim, fun a _ _ _ _ => rfl⟩
  | cons c0 cs ih =>
    rw [List.flatMap_cons] at h
    obtain ⟨t1, t2, rfl, p1, p2⟩ := h.append_inv
    rw [List.nodup_cons] at hnd
    obtain ⟨s1, s2, s3⟩ := chunk_spec p1 (hc c0 List.mem_cons_self) m
    obtain ⟨i1, i2, i3⟩ := ih hnd.2 (fun c h => hc c (List.mem_cons_of_mem _ h)) p2 (runActs m t1)
    have hdisj : ∀ c ∈ cs, ∀ x < chunkLen L, ∀ y < chunkLen L,
        c * chunkLen L + x ≠ c0 * chunkLen L + y := by
      intro c hcm x hx y hy he
      have e1 : (c * chunkLen L + x) / chunkLen L = c := by
        rw [Nat.add_comm, Nat.add_mul_div_right _ _ (chunkLen_pos L), Nat.div_eq_of_lt hx, Nat.zero_add]
      have e2 : (c0 * chunkLen L + y) / chunkLen L = c0 := by
        rw [Nat.add_comm, Nat.add_mul_div_right _ _ (chunkLen_pos L), Nat.div_eq_of_lt hy, Nat.zero_add]
      rw [he, e2] at e1
      exact hnd.1 (e1 ▸ hcm)
    have hkeep : ∀ c ∈ cs, ∀ x < chunkLen L,
        runActs m t1 (el (c * chunkLen L + x)) = m (el (c * chunkLen L + x)) := by
      intro c hcm x hx
      refine s3 _ (by simp) (by simp) (by simp) ?_
      intro y hy e
      simp only [el.injEq] at e
      exact hdisj c hcm x hx y hy e
    refine ⟨?_, ?_, ?_⟩
    · intro c hcm i hi hN
      rw [runActs_append]
      rcases List.mem_cons.mp hcm with rfl | hcm
      · rw [i3 _ (by simp) (by simp) (by simp), s1 i hi hN]
        intro c' hc' y hy e
        simp only [el.injEq] at e
        exact hdisj c' hc' y hy i hi e.symm
      · rw [i1 c hcm i hi hN]
        refine Finset.sum_congr rfl (fun x hx => ?_)
        rw [hkeep c hcm x (by have := Finset.mem_range.mp hx; omega)]
    · intro c hcm
      rw [runActs_append]
      rcases List.mem_cons.mp hcm with rfl | hcm
      · rw [i3 _ (by simp) (by simp) ?_ (by simp), s2]
        intro c' hc' e
        simp only [cn.injEq] at e
        exact hnd.1 (e ▸ hc')
      · rw [i2 c hcm]
        refine Finset.sum_congr rfl (fun x hx => ?_)
        rw [hkeep c hcm x (by have := Finset.mem_range.mp hx; omega)]
    · intro a ha hs hcn he
      rw [runActs_append, i3 a ha hs (fun c h => hcn c (List.mem_cons_of_mem _ h))
        (fun c h => he c (List.mem_cons_of_mem _ h)),
        s3 a ha hs (hcn c0 List.mem_cons_self) (he c0 List.mem_cons_self)]

/-- What block `b` of `TB` may touch. -/
def blockF (L TB b : ℕ) : Set ScanAddr :=
  {a | (∃ i, a = sh b i) ∨ (∃ t, a = reg b t) ∨ (∃ i, i / chunkLen L % TB = b ∧ a = el i) ∨
    ∃ i, i % TB = b ∧ a = cn i}

theorem blockF_disj (L TB b b' : ℕ) (h : b ≠ b') (a : ScanAddr) (ha : a ∈ blockF L TB b) :
    a ∉ blockF L TB b' := by
  intro ha'
  rcases ha with ⟨i, rfl⟩ | ⟨i, rfl⟩ | ⟨i, hi, rfl⟩ | ⟨i, hi, rfl⟩ <;>
    rcases ha' with ⟨j, e⟩ | ⟨j, e⟩ | ⟨j, hj, e⟩ | ⟨j, hj, e⟩ <;>
    simp only [sh.injEq, reg.injEq, el.injEq, cn.injEq, reduceCtorEq] at e
  · exact h e.1
  · exact h e.1
  · rw [e] at hi; omega
  · rw [e] at hi; omega

theorem chunk_local {L N TB b c : ℕ} (hc : c * chunkLen L < N) (hb : c % TB = b) (act : (ScanAct M))
    (h : ∃ ps ∈ chunkPhases L N b c, ∃ p ∈ ps, act ∈ p) : LocalTo ∅ (blockF L TB b) act := by
  obtain ⟨ps, hps, p, hp, hact⟩ := h
  have htree : ∀ j t, ∀ act : (ScanAct M), LocalTo ∅ (treeF b j t) act → LocalTo ∅ (blockF L TB b) act := by
    intro j t act hl
    refine hl.mono ?_ (fun a ha => absurd ha (Set.notMem_empty _))
    rintro a (rfl | rfl | rfl)
    · exact Or.inl ⟨_, rfl⟩
    · exact Or.inl ⟨_, rfl⟩
    · exact Or.inr (Or.inl ⟨_, rfl⟩)
  have hthr : ∀ (prog : ℕ → List (ScanAct M)), p ∈ allThreads (2 ^ L) prog → ∃ t < 2 ^ L, p = prog t := by
    intro prog hp
    unfold allThreads at hp
    obtain ⟨t, ht, rfl⟩ := List.mem_map.mp hp
    exact ⟨t, List.mem_range.mp ht, rfl⟩
  unfold chunkPhases at hps
  simp only [List.mem_append, List.mem_map, List.mem_singleton] at hps
  rcases hps with ((((rfl | ⟨j, _, rfl⟩) | rfl) | ⟨j, _, rfl⟩) | rfl) | rfl
  · obtain ⟨t, ht, rfl⟩ := hthr _ hp
    have := (load_local L N b c t act hact).resolve_right (not_not.mpr ht)
    refine this.mono ?_ ?_
    · rintro a (rfl | rfl) <;> exact Or.inl ⟨_, rfl⟩
    · rintro a ⟨i, hi, rfl⟩
      exact Or.inl (Or.inr (Or.inr (Or.inl ⟨i, by rw [hi, hb], rfl⟩)))
  · obtain ⟨t, ht, rfl⟩ := hthr _ hp
    exact htree _ _ _ (scanUp_local L b j t act hact)
  · obtain ⟨t, ht, rfl⟩ := hthr _ hp
    rcases List.mem_append.mp hact with h | h
    · exact htree _ _ _ (scanUp_local L b L t act h)
    · unfold scanClear at h
      split at h
      · rcases List.mem_cons.mp h with rfl | h
        · exact .assign (Or.inl ⟨_, rfl⟩) (fun _ _ _ => rfl)
        · cases h
      · cases h
  · obtain ⟨t, ht, rfl⟩ := hthr _ hp
    exact htree _ _ _ (scanDown_local L b _ t act hact)
  · obtain ⟨t, ht, rfl⟩ := hthr _ hp
    refine (count_local L N b c t hc act hact).mono ?_ ?_
    · rintro a ⟨_, rfl | rfl⟩
      · exact Or.inr (Or.inl ⟨_, rfl⟩)
      · exact Or.inr (Or.inr (Or.inr ⟨_, hb, rfl⟩))
    · rintro a (⟨i, rfl⟩ | ⟨i, hi, rfl⟩)
      · exact Or.inl (Or.inl ⟨_, rfl⟩)
      · exact Or.inl (Or.inr (Or.inr (Or.inl ⟨i, by rw [hi, hb], rfl⟩)))
  · obtain ⟨t, ht, rfl⟩ := hthr _ hp
    refine (write_local L N b c t act hact).mono ?_ ?_
    · have e1 : (c * chunkLen L + 2 * t) / chunkLen L = c := by
        rw [Nat.add_comm, Nat.add_mul_div_right _ _ (chunkLen_pos L),
          Nat.div_eq_of_lt (by rw [chunkLen_eq]; omega), Nat.zero_add]
      have e2 : (c * chunkLen L + 2 * t + 1) / chunkLen L = c := by
        rw [Nat.add_assoc, Nat.add_comm, Nat.add_mul_div_right _ _ (chunkLen_pos L),
          Nat.div_eq_of_lt (by rw [chunkLen_eq]; omega), Nat.zero_add]
      rintro a (rfl | rfl)
      · exact Or.inr (Or.inr (Or.inl ⟨_, by rw [e1, hb], rfl⟩))
      · exact Or.inr (Or.inr (Or.inl ⟨_, by rw [e2, hb], rfl⟩))
    · rintro a ⟨i, rfl⟩
      exact Or.inl (Or.inl ⟨_, rfl⟩)

/-- The scan kernel, any launch geometry and schedule: exclusive prefix sums
within every chunk, and the sums of the chunks. -/
theorem scanKernel_spec {L N TB : ℕ} (hT : 0 < TB) {m m' : (ScanMem M)}
    (h : ScanKernel L N (execBlocks N (chunkLen L)) TB m m') :
    (∀ i < N, m' (el i) =
      ∑ x ∈ Finset.range (i % chunkLen L), m (el (i / chunkLen L * chunkLen L + x))) ∧
    (∀ c < execBlocks N (chunkLen L), m' (cn c) =
      ∑ x ∈ Finset.range (min (chunkLen L) (N - c * chunkLen L)), m (el (c * chunkLen L + x))) := by
  obtain ⟨bts, tr, hlen, hph, hi, rfl⟩ := h
  have hmem : ∀ b c, c ∈ strideLoop TB (execBlocks N (chunkLen L)) b → b < TB →
      c * chunkLen L < N ∧ c % TB = b := by
    intro b c hc hb
    obtain ⟨k, rfl, hk⟩ := (mem_strideLoop hT b c).mp hc
    refine ⟨(lt_execBlocks (chunkLen_pos L)).mp hk, ?_⟩
    rw [Nat.add_mul_mod_self_right, Nat.mod_eq_of_lt hb]
  have hbt : ∀ b p, bts[b]? = some p → b < TB := by
    intro b p hp
    have := (List.getElem?_eq_some_iff.mp hp).1
    omega
  obtain ⟨r1, _⟩ := hi.run_local ∅ (blockF L TB) (fun _ _ h => absurd h (Set.notMem_empty _))
    (blockF_disj L TB) (by
      intro b p hp act hact
      obtain ⟨ps, hps, q⟩ := (hph b p hp).mem hact
      unfold blockPhases at hps
      obtain ⟨c, hc, hps⟩ := List.mem_flatMap.mp hps
      obtain ⟨hcN, hcb⟩ := hmem b c hc (hbt b p hp)
      exact chunk_local hcN hcb act ⟨ps, hps, q⟩) m
  have key : ∀ c, c * chunkLen L < N → ∃ p, bts[c % TB]? = some p ∧
      Phased ((strideLoop TB (execBlocks N (chunkLen L)) (c % TB)).flatMap (chunkPhases L N (c % TB))) p ∧
      c ∈ strideLoop TB (execBlocks N (chunkLen L)) (c % TB) := by
    intro c hc
    have hb : c % TB < bts.length := by rw [hlen]; exact Nat.mod_lt _ hT
    refine ⟨bts[c % TB], List.getElem?_eq_getElem hb, hph _ _ (List.getElem?_eq_getElem hb), ?_⟩
    rw [mem_strideLoop hT]
    exact ⟨c / TB, by rw [Nat.mul_comm]; exact (Nat.mod_add_div c TB).symm,
      (lt_execBlocks (chunkLen_pos L)).mpr hc⟩
  constructor
  · intro i hiN
    have hp := chunkLen_pos L
    have e : i / chunkLen L * chunkLen L + i % chunkLen L = i := Nat.div_add_mod' i _
    obtain ⟨p, hp1, hp2, hp3⟩ := key (i / chunkLen L) (by omega)
    rw [r1 _ p hp1 (el i) (Or.inr (Or.inr (Or.inl ⟨i, rfl, rfl⟩)))]
    have := (block_spec _ (nodup_strideLoop _) (fun c hc => (hmem _ c hc (Nat.mod_lt _ hT)).1) hp2 m).1
      _ hp3 (i % chunkLen L) (Nat.mod_lt _ hp) (by omega)
    rw [e] at this
    exact this
  · intro c hc
    obtain ⟨p, hp1, hp2, hp3⟩ := key c ((lt_execBlocks (chunkLen_pos L)).mp hc)
    rw [r1 _ p hp1 (cn c) (Or.inr (Or.inr (Or.inr ⟨c, rfl, rfl⟩)))]
    exact (block_spec _ (nodup_strideLoop _) (fun c hc => (hmem _ c hc (Nat.mod_lt _ hT)).1) hp2 m).2.1
      _ hp3

/-! ### propagation, when no block loops twice -/

/-- What block `b` may touch. -/
def propF (L P TB b : ℕ) : Set ScanAddr :=
  {a | a = sh b 0 ∨ (∃ t, a = reg b t) ∨ ∃ i, chunkLen L ≤ i ∧ (i - chunkLen L) / P % TB = b ∧ a = el i}

theorem propF_disj (L P TB b b' : ℕ) (h : b ≠ b') (a : ScanAddr) (ha : a ∈ propF L P TB b) :
    a ∉ propF L P TB b' := by
  intro ha'
  rcases ha with rfl | ⟨i, rfl⟩ | ⟨i, _, hi, rfl⟩ <;>
    rcases ha' with e | ⟨j, e⟩ | ⟨j, _, hj, e⟩ <;>
    simp only [sh.injEq, reg.injEq, el.injEq, reduceCtorEq] at e
  · exact h e.1
  · exact h e.1
  · rw [e] at hi; omega

theorem propCur_block {L P TB b t k : ℕ} (hb : b < TB) (ht : t < P) :
    (propCur L P TB b t k - chunkLen L) / P % TB = b := by
  have e : propCur L P TB b t k - chunkLen L = t + P * (b + k * TB) := by
    unfold propCur
    have : b * P + t + chunkLen L + k * (TB * P) = t + P * (b + k * TB) + chunkLen L := by ring
    omega
  rw [e, Nat.add_mul_div_left _ _ (by omega), Nat.div_eq_of_lt ht, Nat.zero_add,
    Nat.add_mul_mod_self_right, Nat.mod_eq_of_lt hb]

theorem prop_local {L N P TB b k t : ℕ} (hb : b < TB) (ht : t < P) (act : (ScanAct M))
    (h : act ∈ propPhase L N P TB b k t) :
    LocalTo {a | ∃ i, a = cn i} (propF L P TB b) act := by
  unfold propPhase at h
  rcases List.mem_append.mp h with h | h
  · split at h
    · rcases List.mem_cons.mp h with rfl | h
      · exact .assign (Or.inr (Or.inl ⟨_, rfl⟩)) (fun m m' hm => hm _ (Or.inl (Or.inl rfl)))
      · rcases List.mem_cons.mp h with rfl | h
        · have hm1 : el (propCur L P TB b t (k - 1)) ∈ propF L P TB b :=
            Or.inr (Or.inr ⟨_, by unfold propCur; omega, propCur_block hb ht, rfl⟩)
          refine .assign hm1 (fun m m' hm => ?_)
          rw [hm _ (Or.inl hm1), hm _ (Or.inl (Or.inr (Or.inl ⟨_, rfl⟩)))]
        · cases h
    · cases h
  · split at h
    · rcases List.mem_cons.mp h with rfl | h
      · exact .assign (Or.inl rfl) (fun m m' hm => hm _ (Or.inr ⟨_, rfl⟩))
      · cases h
    · cases h

/-- Empty phases do nothing. -/
theorem phased_empty {phs : List (List (List (ScanAct M)))} {tr : List (ScanAct M)} (h : Phased phs tr)
    (he : ∀ ps ∈ phs, ∀ p ∈ ps, p = []) : tr = [] := by
  rw [List.eq_nil_iff_forall_not_mem]
  intro a ha
  obtain ⟨ps, hps, p, hp, hap⟩ := h.mem ha
  rw [he ps hps p hp] at hap
  cases hap

theorem div_of_dvd {P len b t : ℕ} (hP : 0 < P) (hd : P ∣ len) (ht : t < P) :
    (b * P + t + len) / len = (b * P + len) / len := by
  obtain ⟨q, rfl⟩ := hd
  rw [← Nat.div_div_eq_div_mul, ← Nat.div_div_eq_div_mul]
  congr 1
  rw [show b * P + t + P * q = t + P * (b + q) by ring, show b * P + P * q = 0 + P * (b + q) by ring,
    Nat.add_mul_div_left _ _ hP, Nat.add_mul_div_left _ _ hP, Nat.div_eq_of_lt ht, Nat.div_eq_of_lt hP]

theorem prop_block_spec {L N P TB b : ℕ} (hP : 0 < P) (hN : 0 < N) (hd : P ∣ chunkLen L) (hb : b < TB)
    (hone : N - chunkLen L ≤ TB * P) {tr : List (ScanAct M)} (h : Phased (propPhases L N P TB b N) tr)
    (m : (ScanMem M)) (t : ℕ) (ht : t < P) (hlt : b * P + t + chunkLen L < N) :
    runActs m tr (el (b * P + t + chunkLen L)) =
      m (el (b * P + t + chunkLen L)) + m (cn ((b * P + t + chunkLen L) / chunkLen L)) := by
  have hlate : ∀ t k, propCur L P TB b t (k + 1) < N → False := by
    intro t k hk
    unfold propCur at hk
    have e : (k + 1) * (TB * P) = k * (TB * P) + TB * P := by ring
    have : 0 ≤ k * (TB * P) := Nat.zero_le _
    omega
  have hcur : ∀ t, propCur L P TB b t 0 = b * P + t + chunkLen L := by
    intro t; unfold propCur; ring
  unfold propPhases at h
  obtain ⟨N', rfl⟩ : ∃ N', N = N' + 1 := ⟨N - 1, by omega⟩
  rw [show N' + 1 + 1 = 2 + N' by omega, List.range_add, List.map_append] at h
  obtain ⟨t1, t2, rfl, p1, p2⟩ := h.append_inv
  have e2 : t2 = [] := by
    refine phased_empty p2 ?_
    intro ps hps p hp
    simp only [List.map_map, List.mem_map, Function.comp, List.mem_range] at hps
    obtain ⟨k, _, rfl⟩ := hps
    unfold allThreads at hp
    obtain ⟨u, _, rfl⟩ := List.mem_map.mp hp
    unfold propPhase
    rw [if_neg, if_neg, List.nil_append]
    · rintro ⟨_, h⟩
      rw [show 2 + k = k + 1 + 1 by omega] at h
      exact hlate _ _ h
    · rintro ⟨_, h⟩
      rw [show 2 + k - 1 = k + 1 by omega] at h
      exact hlate _ _ h
  subst e2
  have p1' : Phased ([allThreads P (propPhase L (N' + 1) P TB b 0)] ++
      [allThreads P (propPhase L (N' + 1) P TB b 1)]) t1 := p1
  obtain ⟨s1, s2, rfl, q1, q2⟩ := p1'.append_inv
  replace q1 := q1.single_inv
  replace q2 := q2.single_inv
  rw [List.append_nil, runActs_append]
  -- first phase: thread 0 writes the offset
  obtain ⟨a1, a2⟩ := phase_local q1 {a | ∃ i, a = cn i} (fun u => {a | u = 0 ∧ a = sh b 0})
    (by rintro u a ⟨i, rfl⟩ ⟨_, e⟩; cases e)
    (by rintro u u' hu a ⟨h0, _⟩ ⟨h0', _⟩; omega)
    (by
      intro u hu act hact
      unfold propPhase at hact
      rw [if_neg (by omega), List.nil_append] at hact
      split at hact
      · rename_i h0
        rcases List.mem_cons.mp hact with rfl | hact
        · exact .assign ⟨h0.1, rfl⟩ (fun m m' hm => hm _ (Or.inr ⟨_, rfl⟩))
        · cases hact
      · cases hact) m
  have hoff : runActs m s1 (sh b 0) = m (cn ((b * P + chunkLen L) / chunkLen L)) := by
    rw [a1 0 hP _ ⟨rfl, rfl⟩]
    unfold propPhase
    rw [if_neg (by omega), List.nil_append, hcur, if_pos ⟨rfl, by omega⟩, runActs_cons, runActs_nil,
      assign_self, Nat.add_zero]
  -- second phase: updates
  obtain ⟨b1, b2⟩ := phase_local q2 {a | a = sh b 0}
    (fun u => {a | a = reg b u ∨ a = el (b * P + u + chunkLen L)})
    (by rintro u a rfl (e | e) <;> cases e)
    (by
      rintro u u' hu a (rfl | rfl) (e | e) <;> simp only [reg.injEq, el.injEq, reduceCtorEq] at e
      · exact hu e.2
      · omega)
    (by
      intro u hu act hact
      unfold propPhase at hact
      rw [if_neg (show ¬ (u = 0 ∧ propCur L P TB b 0 1 < N' + 1) from fun h => hlate 0 0 h.2),
        List.append_nil] at hact
      split at hact
      · simp only [Nat.sub_self, hcur] at hact
        rcases List.mem_cons.mp hact with rfl | hact
        · exact .assign (Or.inl rfl) (fun m m' hm => hm _ (Or.inr rfl))
        · rcases List.mem_cons.mp hact with rfl | hact
          · refine .assign (Or.inr rfl) (fun m m' hm => ?_)
            rw [hm _ (Or.inl (Or.inr rfl)), hm _ (Or.inl (Or.inl rfl))]
          · cases hact
      · cases hact) (runActs m s1)
  rw [b1 t ht _ (Or.inr rfl)]
  unfold propPhase
  rw [if_neg (show ¬ (t = 0 ∧ propCur L P TB b 0 1 < N' + 1) from fun h => hlate 0 0 h.2),
    List.append_nil]
  simp only [Nat.sub_self, hcur]
  rw [if_pos ⟨le_rfl, hlt⟩, runActs_cons, runActs_cons, runActs_nil, assign_self,
    assign_ne _ _ (by simp), assign_self, hoff, a2 _ (by rintro u _ ⟨_, e⟩; cases e),
    div_of_dvd hP hd ht]

/-- The propagation kernel when no block has more than one iteration. -/
theorem propKernel_spec {L N P TB : ℕ} (hP : 0 < P) (hd : P ∣ chunkLen L)
    (hone : N - chunkLen L ≤ TB * P) {m m' : (ScanMem M)} (h : PropKernel L N P TB m m') (i : ℕ) (hi : i < N) :
    m' (el i) = if chunkLen L ≤ i then m (el i) + m (cn (i / chunkLen L)) else m (el i) := by
  obtain ⟨bts, tr, hlen, hph, hil, rfl⟩ := h
  obtain ⟨r1, r2⟩ := hil.run_local {a | ∃ i, a = cn i} (propF L P TB)
    (by rintro t a ⟨i, rfl⟩ (e | ⟨_, e⟩ | ⟨_, _, _, e⟩) <;> cases e)
    (propF_disj L P TB) (by
      intro b p hp act hact
      have hb : b < TB := by
        have := (List.getElem?_eq_some_iff.mp hp).1
        omega
      obtain ⟨ps, hps, p', hp', ha⟩ := (hph b p hp).mem hact
      unfold propPhases at hps
      obtain ⟨k, _, rfl⟩ := List.mem_map.mp hps
      unfold allThreads at hp'
      obtain ⟨t, ht, rfl⟩ := List.mem_map.mp hp'
      exact prop_local hb (List.mem_range.mp ht) act ha) m
  by_cases hc : chunkLen L ≤ i
  · rw [if_pos hc]
    set b := (i - chunkLen L) / P with hbdef
    have e : b * P + (i - chunkLen L) % P = i - chunkLen L := Nat.div_add_mod' _ _
    have hb : b < TB := by
      rw [hbdef, Nat.div_lt_iff_lt_mul hP]
      omega
    have hb' : b < bts.length := by omega
    have ei : b * P + (i - chunkLen L) % P + chunkLen L = i := by omega
    rw [r1 b bts[b] (List.getElem?_eq_getElem hb') (el i)
      (Or.inr (Or.inr ⟨i, hc, by rw [← hbdef, Nat.mod_eq_of_lt hb], rfl⟩))]
    have := prop_block_spec hP (by omega) hd hb hone (hph b _ (List.getElem?_eq_getElem hb')) m
      ((i - chunkLen L) % P) (Nat.mod_lt _ hP) (by omega)
    rw [ei] at this
    exact this
  · rw [if_neg hc]
    refine r2 _ ?_
    rintro b _ (e | ⟨_, e⟩ | ⟨j, hj, _, e⟩) <;>
      simp only [el.injEq, reduceCtorEq] at e
    omega

/-! ### host loops -/

theorem kernelPass_spec {L W N : ℕ} (hW : 0 < W) (hN : 0 < N) {v v' c : ℕ → M}
    (h : KernelPass L W N v v' c) :
    (∀ i < N, v' i = ∑ x ∈ Finset.range (i % chunkLen L), v (i / chunkLen L * chunkLen L + x)) ∧
    (∀ k < execBlocks N (chunkLen L), c k =
      ∑ x ∈ Finset.range (min (chunkLen L) (N - k * chunkLen L)), v (k * chunkLen L + x)) := by
  obtain ⟨m, m', h1, _, h3, h4, h5⟩ := h
  have hE : 0 < execBlocks N (chunkLen L) := (lt_execBlocks (chunkLen_pos L)).mpr (by omega)
  obtain ⟨s1, s2⟩ := scanKernel_spec (launchBlocks_pos hW hE) h3
  constructor
  · intro i hi
    rw [h4, s1 i hi]
    exact Finset.sum_congr rfl (fun x _ => h1 _)
  · intro k hk
    rw [h5, s2 k hk]
    exact Finset.sum_congr rfl (fun x _ => h1 _)

/-- Sums over chunks. -/
theorem sum_chunks {len N : ℕ} (v : ℕ → M) (q : ℕ) (hq : q ≤ execBlocks N len) (hl : 0 < len) :
    ∑ k ∈ Finset.range q, ∑ x ∈ Finset.range (min len (N - k * len)), v (k * len + x) =
      ∑ x ∈ Finset.range (min (q * len) N), v x := by
  induction q with
  | zero => simp
  | succ q ih =>
    have hlt : q * len < N := (lt_execBlocks hl).mp (by omega)
    rw [Finset.sum_range_succ, ih (by omega)]
    have e : (q + 1) * len = q * len + len := by ring
    have e1 : min ((q + 1) * len) N = min (q * len) N + min len (N - q * len) := by omega
    have e2 : min (q * len) N = q * len := by omega
    rw [e1, Finset.sum_range_add, e2]

theorem propPass_spec {L W P N : ℕ} (hP : 0 < P) (hd : P ∣ chunkLen L) (hone : N ≤ chunkLen L + W * P)
    {c v v' : ℕ → M} (h : PropPass L W P N c v v') (i : ℕ) (hi : i < N) :
    v' i = if chunkLen L ≤ i then v i + c (i / chunkLen L) else v i := by
  unfold PropPass at h
  split at h
  · rename_i hlt
    obtain ⟨m, m', h1, h2, h3, h4⟩ := h
    rw [h4, propKernel_spec hP hd ?_ h3 i hi, h1, h2]
    unfold launchBlocks
    split
    · exact le_execBlocks_mul hP
    · omega
  · rw [h, if_neg (by omega)]

theorem execBlocks_lt {L N : ℕ} (h : execBlocks N (chunkLen L) > 1) : execBlocks N (chunkLen L) < N := by
  have hl : 2 ≤ chunkLen L := by
    rw [chunkLen_eq]
    have : 0 < 2 ^ L := by positivity
    omega
  have h1 : 1 * chunkLen L < N := (lt_execBlocks (by omega)).mp h
  by_contra hc
  push Not at hc
  have h2 : (N - 1) * chunkLen L < N := (lt_execBlocks (by omega)).mp (by omega)
  have h3 : (N - 1) * 2 ≤ (N - 1) * chunkLen L := Nat.mul_le_mul_left _ hl
  omega

theorem scan_main {L W P : ℕ} (hW : 0 < W) (hP : 0 < P) (hd : P ∣ chunkLen L) {N : ℕ} {v : ℕ → M}
    {lv lv' : List (ℕ × (ℕ → M))} (h : ScanLevels L W N v lv) (hp : ScanPropagate L W P lv lv')
    (hN : 0 < N) (hone : N ≤ chunkLen L + W * P) :
    ∃ out rest k c, lv' = (N, out) :: rest ∧ rest.getLast? = some (k, c) ∧
      (∀ i < N, out i = ∑ x ∈ Finset.range i, v x) ∧ c 0 = ∑ x ∈ Finset.range N, v x := by
  have hl := chunkLen_pos L
  induction h generalizing lv' with
  | @last N v v' c hk he =>
    have hle : N ≤ chunkLen L := by
      have := le_execBlocks_mul (n := N) hl
      have h2 : execBlocks N (chunkLen L) * chunkLen L ≤ 1 * chunkLen L :=
        Nat.mul_le_mul_right _ (by omega)
      omega
    obtain ⟨s1, s2⟩ := kernelPass_spec hW hN hk
    cases hp with
    | cons hr hpp =>
      cases hr with
      | cons h' _ => cases h'
      | single =>
        rename_i v''
        refine ⟨v'', _, _, c, rfl, rfl, ?_, ?_⟩
        · intro i hi
          rw [propPass_spec hP hd hone hpp i hi, if_neg (by omega), s1 i hi,
            Nat.mod_eq_of_lt (by omega), Nat.div_eq_of_lt (by omega)]
          simp
        · rw [s2 0 ((lt_execBlocks hl).mpr (by omega))]
          simp only [Nat.zero_mul, Nat.sub_zero, Nat.zero_add]
          rw [Nat.min_eq_right hle]
  | @step N v v' c rest hk he next ih =>
    obtain ⟨s1, s2⟩ := kernelPass_spec hW hN hk
    have hlt : execBlocks N (chunkLen L) < N := execBlocks_lt he
    cases hp with
    | single => cases next
    | cons hr hpp =>
      rename_i N1 v'' c' rest'
      obtain ⟨out, rest2, k, c2, e1, e2, e3, e4⟩ := ih hr (by omega) (by omega)
      simp only [List.cons.injEq, Prod.mk.injEq] at e1
      obtain ⟨⟨rfl, rfl⟩, rfl⟩ := e1
      refine ⟨v'', _, k, c2, rfl, ?_, ?_, ?_⟩
      · cases hr' : rest' with
        | nil => rw [hr'] at e2; simp at e2
        | cons a l => rw [hr'] at e2; rw [List.getLast?_cons_cons]; exact e2
      · intro i hi
        have ei : i / chunkLen L * chunkLen L + i % chunkLen L = i := Nat.div_add_mod' i _
        have hsplit : ∑ x ∈ Finset.range i, v x = ∑ x ∈ Finset.range (i / chunkLen L * chunkLen L), v x +
            ∑ x ∈ Finset.range (i % chunkLen L), v (i / chunkLen L * chunkLen L + x) := by
          rw [← Finset.sum_range_add, ei]
        rw [propPass_spec hP hd hone hpp i hi]
        by_cases hc : chunkLen L ≤ i
        · rw [if_pos hc, s1 i hi, e3 (i / chunkLen L) ((lt_execBlocks hl).mpr (by omega)), hsplit,
            add_comm]
          congr 1
          have hq : i / chunkLen L ≤ execBlocks N (chunkLen L) :=
            le_of_lt ((lt_execBlocks hl).mpr (by omega))
          have := sum_chunks v (i / chunkLen L) hq hl
          rw [Nat.min_eq_left (by omega)] at this
          rw [← this]
          refine Finset.sum_congr rfl (fun k hk => ?_)
          exact s2 k (by have := Finset.mem_range.mp hk; omega)
        · rw [if_neg hc, s1 i hi, hsplit, Nat.div_eq_of_lt (by omega)]
          simp
      · rw [e4]
        have := sum_chunks (N := N) v _ le_rfl hl
        rw [Nat.min_eq_right (le_execBlocks_mul hl)] at this
        rw [← this]
        exact Finset.sum_congr rfl (fun k hk => s2 k (Finset.mem_range.mp hk))

/-! ### runs exist -/

theorem exists_blocks (TB : ℕ) (ph : ℕ → List (List (List (ScanAct M)))) :
    ∃ bts : List (List (ScanAct M)), bts.length = TB ∧ ∀ b p, bts[b]? = some p → Phased (ph b) p := by
  refine ⟨(List.range TB).map (fun b => (Phased.exists_seq (ph b)).choose), by simp, ?_⟩
  intro b p hp
  rw [List.getElem?_map, Option.map_eq_some_iff] at hp
  obtain ⟨a, ha, rfl⟩ := hp
  rw [List.getElem?_eq_some_iff] at ha
  obtain ⟨h1, h2⟩ := ha
  rw [List.getElem_range] at h2
  subst h2
  exact (Phased.exists_seq (ph b)).choose_spec

theorem exists_kernelPass (L W N : ℕ) (v : ℕ → M) : ∃ v' c, KernelPass L W N v v' c := by
  obtain ⟨bts, h1, h2⟩ := exists_blocks (launchBlocks W (execBlocks N (chunkLen L)))
    (blockPhases (M := M) L N (execBlocks N (chunkLen L)) (launchBlocks W (execBlocks N (chunkLen L))))
  let m : (ScanMem M) := fun a => match a with | el i => v i | _ => 0
  exact ⟨_, _, m, _, fun i => rfl, fun i => rfl, ⟨bts, _, h1, h2, Interleave.exists_seq bts, rfl⟩,
    fun i => rfl, fun i => rfl⟩

theorem exists_levels (L W N : ℕ) (v : ℕ → M) : ∃ lv, ScanLevels L W N v lv := by
  induction N using Nat.strong_induction_on generalizing v with
  | _ N ih =>
    obtain ⟨v', c, h⟩ := exists_kernelPass L W N v
    by_cases he : execBlocks N (chunkLen L) > 1
    · obtain ⟨rest, hr⟩ := ih _ (execBlocks_lt he) c
      exact ⟨_, .step h he hr⟩
    · exact ⟨_, .last h he⟩

theorem exists_propPass (L W P N : ℕ) (c v : ℕ → M) : ∃ v', PropPass L W P N c v v' := by
  unfold PropPass
  split
  · obtain ⟨bts, h1, h2⟩ := exists_blocks (launchBlocks W (execBlocks (N - chunkLen L) P))
      (fun b => propPhases (M := M) L N P (launchBlocks W (execBlocks (N - chunkLen L) P)) b N)
    let m : (ScanMem M) := fun a => match a with | el i => v i | cn i => c i | _ => 0
    exact ⟨_, m, _, fun i => rfl, fun i => rfl, ⟨bts, _, h1, h2, Interleave.exists_seq bts, rfl⟩,
      fun i => rfl⟩
  · exact ⟨v, rfl⟩

theorem exists_propagate (L W P : ℕ) (x : ℕ × (ℕ → M)) (l : List (ℕ × (ℕ → M))) :
    ∃ y l', ScanPropagate L W P (x :: l) (y :: l') := by
  induction l generalizing x with
  | nil => exact ⟨x, [], .single x⟩
  | cons z l ih =>
    obtain ⟨⟨N1, c⟩, l', h⟩ := ih z
    obtain ⟨N, v⟩ := x
    obtain ⟨v', hp⟩ := exists_propPass L W P N c v
    exact ⟨_, _, .cons h hp⟩

end PC
