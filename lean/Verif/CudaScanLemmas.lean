import Verif.CudaScan
import Mathlib.Tactic.Positivity

/-!
# Lemmas about the CUDA scan
-/

set_option linter.unusedVariables false
set_option linter.unusedSectionVars false

namespace PC

variable {M : Type*} [CommRing M]

open ScanAddr

theorem allThreads_get {n : ℕ} {prog : ℕ → List (ScanAct M)} {t : ℕ} {p : List (ScanAct M)} :
    (allThreads n prog)[t]? = some p ↔ t < n ∧ p = prog t := by
  unfold allThreads
  rw [List.getElem?_map, Option.map_eq_some_iff]
  constructor
  · rintro ⟨a, ha, rfl⟩
    rw [List.getElem?_eq_some_iff] at ha
    obtain ⟨h1, h2⟩ := ha
    rw [List.length_range] at h1
    rw [List.getElem_range] at h2
    subst h2
    exact ⟨h1, rfl⟩
  · rintro ⟨h, rfl⟩
    exact ⟨t, by rw [List.getElem?_eq_getElem (by rw [List.length_range]; exact h), List.getElem_range], rfl⟩

theorem length_allThreads (n : ℕ) (prog : ℕ → List (ScanAct M)) : (allThreads n prog).length = n := by
  unfold allThreads; rw [List.length_map, List.length_range]

/-- Footprint lemma for a phase of a block. -/
theorem phase_local {n : ℕ} {prog : ℕ → List (ScanAct M)} {tr : List (ScanAct M)}
    (h : Interleave (allThreads n prog) tr) (R : Set ScanAddr) (F : ℕ → Set ScanAddr)
    (hRF : ∀ t, ∀ a ∈ R, a ∉ F t) (hF : ∀ t t', t ≠ t' → ∀ a ∈ F t, a ∉ F t')
    (hl : ∀ t < n, ∀ act ∈ prog t, LocalTo R (F t) act) (m : (ScanMem M)) :
    (∀ t < n, ∀ a ∈ F t, runActs m tr a = runActs m (prog t) a) ∧
    (∀ a, (∀ t < n, a ∉ F t) → runActs m tr a = m a) := by
  obtain ⟨h1, h2⟩ := h.run_local R F hRF hF (fun t p hp => by
    obtain ⟨ht, rfl⟩ := allThreads_get.mp hp
    exact hl t ht) m
  refine ⟨fun t ht a ha => h1 t _ (allThreads_get.mpr ⟨ht, rfl⟩) a ha, fun a ha => h2 a ?_⟩
  rw [length_allThreads]
  exact ha

theorem scanA_succ (j t : ℕ) : scanA j t + 1 = 2 ^ j * (2 * t + 1) := by
  have : 0 < 2 ^ j * (2 * t + 1) := by positivity
  unfold scanA; omega

theorem scanB_succ (j t : ℕ) : scanB j t + 1 = 2 ^ j * (2 * t + 2) := by
  have : 0 < 2 ^ j * (2 * t + 2) := by positivity
  unfold scanB; omega

theorem scanA_ne_scanB (j t t' : ℕ) : scanA j t ≠ scanB j t' := by
  intro h
  have e : 2 ^ j * (2 * t + 1) = 2 ^ j * (2 * t' + 2) := by rw [← scanA_succ, ← scanB_succ, h]
  have := Nat.eq_of_mul_eq_mul_left (by positivity) e
  omega

theorem scanA_inj {j t t' : ℕ} (h : scanA j t = scanA j t') : t = t' := by
  have e : 2 ^ j * (2 * t + 1) = 2 ^ j * (2 * t' + 1) := by rw [← scanA_succ, ← scanA_succ, h]
  have := Nat.eq_of_mul_eq_mul_left (by positivity) e
  omega

theorem scanB_inj {j t t' : ℕ} (h : scanB j t = scanB j t') : t = t' := by
  have e : 2 ^ j * (2 * t + 2) = 2 ^ j * (2 * t' + 2) := by rw [← scanB_succ, ← scanB_succ, h]
  have := Nat.eq_of_mul_eq_mul_left (by positivity) e
  omega

/-- Footprint of a thread in the tree phases. -/
def treeF (b j t : ℕ) : Set ScanAddr := {a | a = sh b (scanA j t) ∨ a = sh b (scanB j t) ∨ a = reg b t}

theorem treeF_disj (b j t t' : ℕ) (h : t ≠ t') (a : ScanAddr) (ha : a ∈ treeF b j t) : a ∉ treeF b j t' := by
  intro ha'
  rcases ha with rfl | rfl | rfl <;> rcases ha' with e | e | e <;>
    simp only [sh.injEq, reg.injEq, true_and, reduceCtorEq] at e
  · exact h (scanA_inj e)
  · exact scanA_ne_scanB _ _ _ e
  · exact scanA_ne_scanB _ _ _ e.symm
  · exact h (scanB_inj e)
  · exact h e

theorem scanUp_local (L b j t : ℕ) (act : (ScanAct M)) (h : act ∈ scanUp L b j t) :
    LocalTo ∅ (treeF b j t) act := by
  unfold scanUp at h
  split at h
  · rcases List.mem_cons.mp h with rfl | h
    · exact .assign (Or.inr (Or.inr rfl)) (fun m m' hm => hm _ (Or.inl (Or.inl rfl)))
    · rcases List.mem_cons.mp h with rfl | h
      · refine .assign (Or.inr (Or.inl rfl)) (fun m m' hm => ?_)
        rw [hm _ (Or.inl (Or.inr (Or.inl rfl))), hm _ (Or.inl (Or.inr (Or.inr rfl)))]
      · cases h
  · cases h

theorem scanDown_local (L b j t : ℕ) (act : (ScanAct M)) (h : act ∈ scanDown L b j t) :
    LocalTo ∅ (treeF b j t) act := by
  unfold scanDown at h
  split at h
  · rcases List.mem_cons.mp h with rfl | h
    · exact .assign (Or.inr (Or.inr rfl)) (fun m m' hm => hm _ (Or.inl (Or.inl rfl)))
    · rcases List.mem_cons.mp h with rfl | h
      · exact .assign (Or.inl rfl) (fun m m' hm => hm _ (Or.inl (Or.inr (Or.inl rfl))))
      · rcases List.mem_cons.mp h with rfl | h
        · refine .assign (Or.inr (Or.inl rfl)) (fun m m' hm => ?_)
          rw [hm _ (Or.inl (Or.inr (Or.inl rfl))), hm _ (Or.inl (Or.inr (Or.inr rfl)))]
        · cases h
  · cases h

theorem scanUp_run (L b j t : ℕ) (m : (ScanMem M)) (ht : t < 2 ^ (L - j)) :
    runActs m (scanUp L b j t) (sh b (scanB j t)) = m (sh b (scanB j t)) + m (sh b (scanA j t)) ∧
    runActs m (scanUp L b j t) (sh b (scanA j t)) = m (sh b (scanA j t)) := by
  unfold scanUp
  rw [if_pos ht, runActs_cons, runActs_cons, runActs_nil]
  refine ⟨?_, ?_⟩
  · rw [assign_self, assign_self, assign_ne _ _ (by simp)]
  · rw [assign_ne _ _ (by simpa using scanA_ne_scanB j t t), assign_ne _ _ (by simp)]

theorem scanDown_run (L b j t : ℕ) (m : (ScanMem M)) (ht : t < 2 ^ (L - j)) :
    runActs m (scanDown L b j t) (sh b (scanB j t)) = m (sh b (scanB j t)) + m (sh b (scanA j t)) ∧
    runActs m (scanDown L b j t) (sh b (scanA j t)) = m (sh b (scanB j t)) := by
  have hne := scanA_ne_scanB j t t
  unfold scanDown
  rw [if_pos ht, runActs_cons, runActs_cons, runActs_cons, runActs_nil]
  refine ⟨?_, ?_⟩
  · rw [assign_self, assign_ne _ _ (by simpa using hne.symm), assign_ne _ _ (by simp),
      assign_ne _ _ (by simp), assign_self]
  · rw [assign_ne _ _ (by simpa using hne), assign_self, assign_ne _ _ (by simp)]

theorem pow_le_of {L j : ℕ} : 2 ^ (L - j) ≤ 2 ^ L := Nat.pow_le_pow_right (by norm_num) (by omega)

/-- One phase up the tree, any schedule. -/
theorem up_phase {L b j : ℕ} {tr : List (ScanAct M)}
    (h : Interleave (allThreads (2 ^ L) (scanUp L b j)) tr) (m : (ScanMem M)) :
    (∀ t < 2 ^ (L - j), runActs m tr (sh b (scanB j t)) =
      m (sh b (scanB j t)) + m (sh b (scanA j t))) ∧
    (∀ a, (∀ t, a ≠ reg b t) → (∀ t < 2 ^ (L - j), a ≠ sh b (scanB j t)) → runActs m tr a = m a) := by
  obtain ⟨h1, h2⟩ := phase_local h ∅ (treeF b j) (fun _ _ h => absurd h (Set.notMem_empty _))
    (treeF_disj b j) (fun t _ => scanUp_local L b j t) m
  constructor
  · intro t ht
    rw [h1 t (lt_of_lt_of_le ht pow_le_of) _ (Or.inr (Or.inl rfl)), (scanUp_run L b j t m ht).1]
  · intro a hr hb
    by_cases ha : ∃ t < 2 ^ L, a ∈ treeF b j t
    · obtain ⟨t, ht, ha⟩ := ha
      rw [h1 t ht a ha]
      by_cases hd : t < 2 ^ (L - j)
      · rcases ha with rfl | rfl | rfl
        · exact (scanUp_run L b j t m hd).2
        · exact absurd rfl (hb t hd)
        · exact absurd rfl (hr t)
      · unfold scanUp
        rw [if_neg hd, runActs_nil]
    · push Not at ha
      exact h2 a ha

/-- One phase down the tree, any schedule. -/
theorem down_phase {L b j : ℕ} {tr : List (ScanAct M)}
    (h : Interleave (allThreads (2 ^ L) (scanDown L b j)) tr) (m : (ScanMem M)) :
    (∀ t < 2 ^ (L - j), runActs m tr (sh b (scanB j t)) =
        m (sh b (scanB j t)) + m (sh b (scanA j t)) ∧
      runActs m tr (sh b (scanA j t)) = m (sh b (scanB j t))) ∧
    (∀ a, (∀ t, a ≠ reg b t) → (∀ t < 2 ^ (L - j), a ≠ sh b (scanB j t) ∧ a ≠ sh b (scanA j t)) →
      runActs m tr a = m a) := by
  obtain ⟨h1, h2⟩ := phase_local h ∅ (treeF b j) (fun _ _ h => absurd h (Set.notMem_empty _))
    (treeF_disj b j) (fun t _ => scanDown_local L b j t) m
  constructor
  · intro t ht
    have ht' := lt_of_lt_of_le ht (pow_le_of (L := L) (j := j))
    rw [h1 t ht' _ (Or.inr (Or.inl rfl)), h1 t ht' _ (Or.inl rfl)]
    exact scanDown_run L b j t m ht
  · intro a hr hb
    by_cases ha : ∃ t < 2 ^ L, a ∈ treeF b j t
    · obtain ⟨t, ht, ha⟩ := ha
      rw [h1 t ht a ha]
      by_cases hd : t < 2 ^ (L - j)
      · rcases ha with rfl | rfl | rfl
        · exact absurd rfl (hb t hd).2
        · exact absurd rfl (hb t hd).1
        · exact absurd rfl (hr t)
      · unfold scanDown
        rw [if_neg hd, runActs_nil]
    · push Not at ha
      exact h2 a ha

theorem scanB_top (L : ℕ) : scanB L 0 = chunkLen L - 1 := by
  unfold scanB chunkLen
  rw [Nat.pow_succ]

/-- The last phase up the tree together with the clearing. -/
theorem clear_phase {L b : ℕ} {tr : List (ScanAct M)}
    (h : Interleave (allThreads (2 ^ L) (fun t => scanUp L b L t ++ scanClear L b t)) tr) (m : (ScanMem M)) :
    runActs m tr (sh b (chunkLen L - 1)) = 0 ∧
    (∀ a, (∀ t, a ≠ reg b t) → a ≠ sh b (chunkLen L - 1) → runActs m tr a = m a) := by
  have hloc : ∀ t < 2 ^ L, ∀ act ∈ scanUp (M := M) L b L t ++ scanClear L b t, LocalTo ∅ (treeF b L t) act := by
    intro t _ act hact
    rcases List.mem_append.mp hact with h | h
    · exact scanUp_local L b L t act h
    · unfold scanClear at h
      split at h
      · rename_i ht
        subst ht
        rcases List.mem_cons.mp h with rfl | h
        · refine .assign (Or.inr (Or.inl ?_)) (fun _ _ _ => rfl)
          rw [scanB_top]
        · cases h
      · cases h
  obtain ⟨h1, h2⟩ := phase_local h ∅ (treeF b L) (fun _ _ h => absurd h (Set.notMem_empty _))
    (treeF_disj b L) hloc m
  have hp : 0 < 2 ^ L := by positivity
  constructor
  · rw [h1 0 hp _ (Or.inr (Or.inl (by rw [scanB_top])))]
    rw [runActs_append]
    unfold scanClear
    rw [if_pos rfl, runActs_cons, runActs_nil, assign_self]
  · intro a hr hb
    by_cases ha : ∃ t < 2 ^ L, a ∈ treeF b L t
    · obtain ⟨t, ht, ha⟩ := ha
      rw [h1 t ht a ha, runActs_append]
      by_cases hd : t = 0
      · subst hd
        have e : runActs (runActs m (scanUp L b L 0)) (scanClear L b 0) a = runActs m (scanUp L b L 0) a := by
          unfold scanClear
          rw [if_pos rfl, runActs_cons, runActs_nil, assign_ne _ _ hb]
        rw [e]
        rcases ha with rfl | rfl | rfl
        · exact (scanUp_run L b L 0 m (by positivity)).2
        · rw [scanB_top] at hb; exact absurd rfl hb
        · exact absurd rfl (hr 0)
      · unfold scanClear scanUp
        rw [if_neg hd, if_neg (by rw [Nat.sub_self]; simpa using hd), runActs_nil, runActs_nil]
    · push Not at ha
      exact h2 a ha

/-- The state of the shared array after `j` phases up the tree: an entry whose
position is a multiple of `2 ^ e` but of no larger power (up to `j`) holds the
sum of the `2 ^ e` values ending there. -/
def UpInv (v : ℕ → M) (n j : ℕ) (s : ℕ → M) : Prop :=
  ∀ e ≤ j, ∀ i < n, 2 ^ e ∣ i + 1 → (e = j ∨ ¬ 2 ^ (e + 1) ∣ i + 1) →
    s i = ∑ x ∈ Finset.Ico (i + 1 - 2 ^ e) (i + 1), v x

/-- The state while going down, before the phase with offset `2 ^ (j-1)`. -/
def DownInv (v : ℕ → M) (n j : ℕ) (s : ℕ → M) : Prop :=
  (∀ i < n, 2 ^ j ∣ i + 1 → s i = ∑ x ∈ Finset.range (i + 1 - 2 ^ j), v x) ∧
  (∀ e < j, ∀ i < n, 2 ^ e ∣ i + 1 → ¬ 2 ^ (e + 1) ∣ i + 1 →
    s i = ∑ x ∈ Finset.Ico (i + 1 - 2 ^ e) (i + 1), v x)

theorem upInv_zero (v s : ℕ → M) (n : ℕ) (h : ∀ i < n, s i = v i) : UpInv v n 0 s := by
  intro e he i hi _ _
  have : e = 0 := by omega
  subst this
  rw [h i hi]
  simp

theorem scanB_lt {L j t : ℕ} (hj : j ≤ L) (ht : t < 2 ^ (L - j)) : scanB j t < chunkLen L := by
  have h1 : 2 ^ j * (2 * t + 2) ≤ 2 ^ j * (2 * 2 ^ (L - j)) := Nat.mul_le_mul_left _ (by omega)
  have h2 : 2 ^ j * (2 * 2 ^ (L - j)) = chunkLen L := by
    unfold chunkLen
    rw [show L + 1 = j + (1 + (L - j)) by omega, Nat.pow_add, Nat.pow_add, Nat.pow_one]
  have := scanB_succ j t
  omega

theorem upInv_succ {L : ℕ} (v : ℕ → M) {j : ℕ} (hj : j ≤ L) (s s' : ℕ → M) (h : UpInv v (chunkLen L) j s)
    (h1 : ∀ t < 2 ^ (L - j), s' (scanB j t) = s (scanB j t) + s (scanA j t))
    (h2 : ∀ i, (∀ t < 2 ^ (L - j), i ≠ scanB j t) → s' i = s i) : UpInv v (chunkLen L) (j + 1) s' := by
  intro e he i hi hd hx
  have hp : 0 < 2 ^ j := by positivity
  rcases Nat.lt_or_ge e (j + 1) with hlt | hge
  · -- not touched
    have hx' : ¬ 2 ^ (e + 1) ∣ i + 1 := hx.resolve_left (by omega)
    rw [h2 i ?_, h e (by omega) i hi hd (Or.inr hx')]
    rintro t _ rfl
    apply hx'
    rw [scanB_succ]
    refine (pow_dvd_pow 2 (show e + 1 ≤ j + 1 by omega)).trans ?_
    exact ⟨t + 1, by ring⟩
  · have he' : e = j + 1 := by omega
    subst he'
    obtain ⟨q, hq⟩ := hd
    have hq0 : 0 < q := by
      rcases Nat.eq_zero_or_pos q with h0 | h0
      · rw [h0] at hq; omega
      · exact h0
    obtain ⟨t, rfl⟩ : ∃ t, q = t + 1 := ⟨q - 1, by omega⟩
    have hi' : i = scanB j t := by
      have := scanB_succ j t
      have e2 : 2 ^ (j + 1) * (t + 1) = 2 ^ j * (2 * t + 2) := by ring
      omega
    subst hi'
    have ht : t < 2 ^ (L - j) := by
      by_contra hc
      push Not at hc
      have h3 : 2 ^ j * (2 * 2 ^ (L - j)) = chunkLen L := by
        unfold chunkLen
        rw [show L + 1 = j + (1 + (L - j)) by omega, Nat.pow_add, Nat.pow_add, Nat.pow_one]
      have h4 : 2 ^ j * (2 * 2 ^ (L - j)) ≤ 2 ^ j * (2 * t) := Nat.mul_le_mul_left _ (by omega)
      have h5 : 2 ^ j * (2 * t + 2) = 2 ^ j * (2 * t) + 2 * 2 ^ j := by ring
      have := scanB_succ j t
      have : 0 < 2 ^ j := by positivity
      omega
    rw [h1 t ht, h j le_rfl (scanB j t) hi ⟨2 * t + 2, scanB_succ j t⟩ (Or.inl rfl),
      h j le_rfl (scanA j t) (by
        have h6 := scanA_succ j t
        have h7 := scanB_succ j t
        have h5 : 2 ^ j * (2 * t + 2) = 2 ^ j * (2 * t + 1) + 2 ^ j := by ring
        omega) ⟨2 * t + 1, scanA_succ j t⟩ (Or.inl rfl)]
    have e1 : scanB j t + 1 - 2 ^ j = scanA j t + 1 := by
      rw [scanB_succ, scanA_succ]
      have h5 : 2 ^ j * (2 * t + 2) = 2 ^ j * (2 * t + 1) + 2 ^ j := by ring
      omega
    have e2 : scanB j t + 1 - 2 ^ (j + 1) = scanA j t + 1 - 2 ^ j := by
      rw [← e1, Nat.pow_succ]; omega
    rw [e1, e2, add_comm]
    refine Finset.sum_Ico_consecutive v (by omega) ?_
    have := scanB_succ j t
    have := scanA_succ j t
    have h5 : 2 ^ j * (2 * t + 2) = 2 ^ j * (2 * t + 1) + 2 ^ j := by ring
    omega

theorem downInv_start {L : ℕ} (v s s' : ℕ → M) (h : UpInv v (chunkLen L) L s)
    (h1 : s' (chunkLen L - 1) = 0) (h2 : ∀ i, i ≠ chunkLen L - 1 → s' i = s i) :
    DownInv v (chunkLen L) (L + 1) s' := by
  have hp : 0 < chunkLen L := by unfold chunkLen; positivity
  constructor
  · intro i hi hd
    have hle : chunkLen L ≤ i + 1 := Nat.le_of_dvd (by omega) hd
    have : i = chunkLen L - 1 := by omega
    rw [this, h1]
    have e : chunkLen L - 1 + 1 - 2 ^ (L + 1) = 0 := by
      have : chunkLen L = 2 ^ (L + 1) := rfl
      omega
    rw [e]; simp
  · intro e he i hi hd hx
    have hne : i ≠ chunkLen L - 1 := by
      rintro rfl
      apply hx
      rw [show chunkLen L - 1 + 1 = chunkLen L by omega]
      exact pow_dvd_pow 2 (by omega)
    rw [h2 i hne]
    exact h e (by omega) i hi hd (Or.inr hx)

theorem downInv_step {L : ℕ} (v : ℕ → M) {j : ℕ} (hj : j ≤ L) (s s' : ℕ → M)
    (h : DownInv v (chunkLen L) (j + 1) s)
    (h1 : ∀ t < 2 ^ (L - j), s' (scanB j t) = s (scanB j t) + s (scanA j t) ∧
      s' (scanA j t) = s (scanB j t))
    (h2 : ∀ i, (∀ t < 2 ^ (L - j), i ≠ scanB j t ∧ i ≠ scanA j t) → s' i = s i) :
    DownInv v (chunkLen L) j s' := by
  have hlen : 2 ^ j * (2 * 2 ^ (L - j)) = chunkLen L := by
    unfold chunkLen
    rw [show L + 1 = j + (1 + (L - j)) by omega, Nat.pow_add, Nat.pow_add, Nat.pow_one]
  have hp : 0 < 2 ^ j := by positivity
  -- old values
  have vals : ∀ t < 2 ^ (L - j), s (scanB j t) = ∑ x ∈ Finset.range (2 ^ j * (2 * t)), v x ∧
      s (scanA j t) = ∑ x ∈ Finset.Ico (2 ^ j * (2 * t)) (2 ^ j * (2 * t + 1)), v x := by
    intro t ht
    have hb := scanB_lt hj ht
    have hA := scanA_succ j t
    have hB := scanB_succ j t
    have h5 : 2 ^ j * (2 * t + 2) = 2 ^ j * (2 * t + 1) + 2 ^ j := by ring
    have h6 : 2 ^ j * (2 * t + 1) = 2 ^ j * (2 * t) + 2 ^ j := by ring
    constructor
    · rw [h.1 (scanB j t) hb ⟨t + 1, by rw [hB]; ring⟩]
      congr 2
      rw [hB, Nat.pow_succ]; omega
    · rw [h.2 j (by omega) (scanA j t) (by omega) ⟨2 * t + 1, hA⟩ ?_, hA]
      · congr 2
        omega
      · rintro ⟨q, hq⟩
        have e : 2 ^ j * (2 * t + 1) = 2 ^ j * (2 * q) := by rw [← hA, hq]; ring
        have := Nat.eq_of_mul_eq_mul_left hp e
        omega
  constructor
  · intro i hi hd
    obtain ⟨q, hq⟩ := hd
    have hq0 : 0 < q := by
      rcases Nat.eq_zero_or_pos q with h0 | h0
      · rw [h0] at hq; omega
      · exact h0
    rcases Nat.even_or_odd' (q - 1) with ⟨t, ht | ht⟩
    · -- left child
      have hq' : q = 2 * t + 1 := by omega
      subst hq'
      have hi' : i = scanA j t := by have := scanA_succ j t; omega
      subst hi'
      have htl : t < 2 ^ (L - j) := by
        by_contra hc
        push Not at hc
        have h4 : 2 ^ j * (2 * 2 ^ (L - j)) ≤ 2 ^ j * (2 * t) := Nat.mul_le_mul_left _ (by omega)
        have h6 : 2 ^ j * (2 * t + 1) = 2 ^ j * (2 * t) + 2 ^ j := by ring
        omega
      rw [(h1 t htl).2, (vals t htl).1, scanA_succ]
      have h6 : 2 ^ j * (2 * t + 1) = 2 ^ j * (2 * t) + 2 ^ j := by ring
      rw [h6, Nat.add_sub_cancel]
    · have hq' : q = 2 * t + 2 := by omega
      subst hq'
      have hi' : i = scanB j t := by have := scanB_succ j t; omega
      subst hi'
      have htl : t < 2 ^ (L - j) := by
        by_contra hc
        push Not at hc
        have h4 : 2 ^ j * (2 * 2 ^ (L - j)) ≤ 2 ^ j * (2 * t) := Nat.mul_le_mul_left _ (by omega)
        have h6 : 2 ^ j * (2 * t + 2) = 2 ^ j * (2 * t) + 2 * 2 ^ j := by ring
        omega
      rw [(h1 t htl).1, (vals t htl).1, (vals t htl).2, scanB_succ]
      have h6 : 2 ^ j * (2 * t + 2) = 2 ^ j * (2 * t + 1) + 2 ^ j := by ring
      rw [h6, Nat.add_sub_cancel, Finset.range_eq_Ico, Finset.range_eq_Ico]
      exact Finset.sum_Ico_consecutive v (by omega) (Nat.mul_le_mul_left _ (by omega))
  · intro e he i hi hd hx
    rw [h2 i ?_]
    · exact h.2 e (by omega) i hi hd hx
    · intro t _
      constructor
      · rintro rfl
        apply hx
        rw [scanB_succ]
        exact (pow_dvd_pow 2 (show e + 1 ≤ j by omega)).trans ⟨_, rfl⟩
      · rintro rfl
        apply hx
        rw [scanA_succ]
        exact (pow_dvd_pow 2 (show e + 1 ≤ j by omega)).trans ⟨_, rfl⟩

/-- Down to offset 1: exclusive prefix sums. -/
theorem downInv_zero {v s : ℕ → M} {n : ℕ} (h : DownInv v n 0 s) (i : ℕ) (hi : i < n) :
    s i = ∑ x ∈ Finset.range i, v x := by
  have := h.1 i hi (by simp)
  simpa using this

/-! ### the remaining phases -/

theorem chunkLen_eq (L : ℕ) : chunkLen L = 2 * 2 ^ L := by unfold chunkLen; rw [Nat.pow_succ]; ring

theorem chunkLen_pos (L : ℕ) : 0 < chunkLen L := by unfold chunkLen; positivity

theorem mul_chunkLen (L c : ℕ) : c * chunkLen L = 2 * (c * 2 ^ L) := by rw [chunkLen_eq]; ring

/-- Position of a pair of elements. -/
theorem two_cur (L c t : ℕ) : 2 * (c * 2 ^ L + t) = c * chunkLen L + 2 * t := by
  rw [mul_chunkLen]; ring

theorem load_local (L N b c t : ℕ) (act : (ScanAct M)) (h : act ∈ scanLoad L N b c t) :
    LocalTo {a | ∃ i, i / chunkLen L = c ∧ a = el i} {a | a = sh b (2 * t) ∨ a = sh b (2 * t + 1)} act ∨
      ¬ t < 2 ^ L := by
  by_cases ht : t < 2 ^ L
  · left
    have e1 : 2 * (c * 2 ^ L + t) / chunkLen L = c := by
      rw [two_cur, Nat.add_comm, Nat.add_mul_div_right _ _ (chunkLen_pos L),
        Nat.div_eq_of_lt (by rw [chunkLen_eq]; omega), Nat.zero_add]
    have e2 : (2 * (c * 2 ^ L + t) + 1) / chunkLen L = c := by
      rw [two_cur, Nat.add_assoc, Nat.add_comm, Nat.add_mul_div_right _ _ (chunkLen_pos L),
        Nat.div_eq_of_lt (by rw [chunkLen_eq]; omega), Nat.zero_add]
    unfold scanLoad at h
    rcases List.mem_cons.mp h with rfl | h
    · refine .assign (Or.inl rfl) (fun m m' hm => ?_)
      rw [hm _ (Or.inr ⟨_, e1, rfl⟩)]
    · rcases List.mem_cons.mp h with rfl | h
      · refine .assign (Or.inr rfl) (fun m m' hm => ?_)
        rw [hm _ (Or.inr ⟨_, e2, rfl⟩)]
      · cases h
  · right; exact ht

theorem load_phase {L N b c : ℕ} {tr : List (ScanAct M)}
    (h : Interleave (allThreads (2 ^ L) (scanLoad L N b c)) tr) (m : (ScanMem M)) :
    (∀ i < chunkLen L, runActs m tr (sh b i) =
      if c * chunkLen L + i < N then m (el (c * chunkLen L + i)) else 0) ∧
    (∀ a, (∀ i, a ≠ sh b i) → runActs m tr a = m a) := by
  obtain ⟨h1, h2⟩ := phase_local h {a | ∃ i, i / chunkLen L = c ∧ a = el i}
    (fun t => {a | a = sh b (2 * t) ∨ a = sh b (2 * t + 1)})
    (by
      rintro t a ⟨i, _, rfl⟩ (e | e) <;> cases e)
    (by
      rintro t t' ht a (rfl | rfl) (e | e) <;> simp only [sh.injEq, true_and] at e <;> omega)
    (fun t ht act hact => (load_local L N b c t act hact).resolve_right (not_not.mpr ht)) m
  constructor
  · intro i hi
    have hi2 : i / 2 < 2 ^ L := by rw [chunkLen_eq] at hi; omega
    rcases Nat.even_or_odd' i with ⟨t, rfl | rfl⟩
    · have ht : t < 2 ^ L := by omega
      rw [h1 t ht _ (Or.inl rfl)]
      unfold scanLoad
      rw [runActs_cons, runActs_cons, runActs_nil, assign_ne _ _ (by simp), assign_self,
        two_cur, Nat.mul_comm (c * 2 ^ L + t) 2, two_cur]
    · have ht : t < 2 ^ L := by omega
      rw [h1 t ht _ (Or.inr rfl)]
      unfold scanLoad
      rw [runActs_cons, runActs_cons, runActs_nil, assign_self, assign_ne _ _ (by simp),
        two_cur, Nat.mul_comm (c * 2 ^ L + t) 2, two_cur, Nat.add_assoc]
  · intro a ha
    refine h2 a ?_
    rintro t _ (rfl | rfl)
    · exact ha _ rfl
    · exact ha _ rfl

theorem count_local (L N b c t : ℕ) (hc : c * chunkLen L < N) (act : (ScanAct M))
    (h : act ∈ scanCount L N b c t) :
    LocalTo {a | (∃ i, a = sh b i) ∨ ∃ i, i / chunkLen L = c ∧ a = el i}
      {a | t = 0 ∧ (a = reg b t ∨ a = cn c)} act := by
  unfold scanCount at h
  split at h
  · rename_i ht
    dsimp only at h
    rcases List.mem_cons.mp h with rfl | h
    · exact .assign ⟨ht, Or.inl rfl⟩ (fun m m' hm => hm _ (Or.inr (Or.inl ⟨_, rfl⟩)))
    · rcases List.mem_cons.mp h with rfl | h
      · refine .assign ⟨ht, Or.inr rfl⟩ (fun m m' hm => ?_)
        have hd : (2 * (c * 2 ^ L) + min (chunkLen L - 1) (N - c * 2 ^ L * 2 - 1)) / chunkLen L = c := by
          rw [← mul_chunkLen, Nat.add_comm, Nat.add_mul_div_right _ _ (chunkLen_pos L),
            Nat.div_eq_of_lt (by have := chunkLen_pos L; omega), Nat.zero_add]
        rw [hm _ (Or.inl ⟨ht, Or.inl rfl⟩), hm _ (Or.inr (Or.inr ⟨_, hd, rfl⟩))]
      · cases h
  · cases h

theorem count_phase {L N b c : ℕ} {tr : List (ScanAct M)}
    (h : Interleave (allThreads (2 ^ L) (scanCount L N b c)) tr) (hc : c * chunkLen L < N) (m : (ScanMem M)) :
    (runActs m tr (cn c) =
      m (sh b (min (chunkLen L - 1) (N - c * chunkLen L - 1))) +
      m (el (c * chunkLen L + min (chunkLen L - 1) (N - c * chunkLen L - 1)))) ∧
    (∀ a, (∀ t, a ≠ reg b t) → a ≠ cn c → runActs m tr a = m a) := by
  obtain ⟨h1, h2⟩ := phase_local h {a | (∃ i, a = sh b i) ∨ ∃ i, i / chunkLen L = c ∧ a = el i}
    (fun t => {a | t = 0 ∧ (a = reg b t ∨ a = cn c)})
    (by
      rintro t a (⟨i, rfl⟩ | ⟨i, _, rfl⟩) ⟨_, e | e⟩ <;> cases e)
    (by
      rintro t t' ht a ⟨h0, _⟩ ⟨h0', _⟩
      omega)
    (fun t ht act hact => count_local L N b c t hc act hact) m
  have hp : 0 < 2 ^ L := by positivity
  constructor
  · rw [h1 0 hp _ ⟨rfl, Or.inr rfl⟩]
    unfold scanCount
    rw [if_pos rfl]
    dsimp only
    rw [runActs_cons, runActs_cons, runActs_nil, assign_self, assign_self, assign_ne _ _ (by simp),
      ← mul_chunkLen, show c * 2 ^ L * 2 = c * chunkLen L by rw [mul_chunkLen]; ring]
  · intro a hr hb
    refine h2 a ?_
    rintro t _ ⟨rfl, rfl | rfl⟩
    · exact hr _ rfl
    · exact hb rfl

theorem write_local (L N b c t : ℕ) (act : (ScanAct M)) (h : act ∈ scanWrite L N b c t) :
    LocalTo {a | ∃ i, a = sh b i}
      {a | a = el (c * chunkLen L + 2 * t) ∨ a = el (c * chunkLen L + 2 * t + 1)} act := by
  unfold scanWrite at h
  dsimp only at h
  rw [two_cur] at h
  rcases List.mem_append.mp h with h | h
  · split at h
    · rcases List.mem_cons.mp h with rfl | h
      · exact .assign (Or.inl rfl) (fun m m' hm => hm _ (Or.inr ⟨_, rfl⟩))
      · cases h
    · cases h
  · split at h
    · rcases List.mem_cons.mp h with rfl | h
      · exact .assign (Or.inr rfl) (fun m m' hm => hm _ (Or.inr ⟨_, rfl⟩))
      · cases h
    · cases h

theorem write_phase {L N b c : ℕ} {tr : List (ScanAct M)}
    (h : Interleave (allThreads (2 ^ L) (scanWrite L N b c)) tr) (m : (ScanMem M)) :
    (∀ i < chunkLen L, c * chunkLen L + i < N →
      runActs m tr (el (c * chunkLen L + i)) = m (sh b i)) ∧
    (∀ a, (∀ i < chunkLen L, a ≠ el (c * chunkLen L + i)) → runActs m tr a = m a) := by
  obtain ⟨h1, h2⟩ := phase_local h {a | ∃ i, a = sh b i}
    (fun t => {a | a = el (c * chunkLen L + 2 * t) ∨ a = el (c * chunkLen L + 2 * t + 1)})
    (by
      rintro t a ⟨i, rfl⟩ (e | e) <;> cases e)
    (by
      rintro t t' ht a (rfl | rfl) (e | e) <;> simp only [el.injEq] at e <;> omega)
    (fun t ht act hact => write_local L N b c t act hact) m
  constructor
  · intro i hi hN
    rw [chunkLen_eq] at hi
    rcases Nat.even_or_odd' i with ⟨t, rfl | rfl⟩
    · have ht : t < 2 ^ L := by omega
      rw [h1 t ht _ (Or.inl rfl)]
      unfold scanWrite
      dsimp only
      rw [two_cur, Nat.mul_comm (c * 2 ^ L + t) 2, two_cur, if_pos hN]
      split
      · rw [List.singleton_append, runActs_cons, runActs_cons, runActs_nil, assign_ne _ _ (by simp),
          assign_self]
      · rw [List.append_nil, runActs_cons, runActs_nil, assign_self]
    · have ht : t < 2 ^ L := by omega
      rw [h1 t ht _ (Or.inr (by rw [Nat.add_assoc]))]
      unfold scanWrite
      dsimp only
      rw [two_cur, Nat.mul_comm (c * 2 ^ L + t) 2, two_cur,
        if_pos (show c * chunkLen L + 2 * t < N by omega), ← Nat.add_assoc,
        if_pos (show c * chunkLen L + 2 * t + 1 < N by omega),
        List.singleton_append, runActs_cons, runActs_cons, runActs_nil, assign_self,
        assign_ne _ _ (by simp)]
  · intro a ha
    refine h2 a ?_
    rintro t ht (rfl | rfl)
    · exact ha (2 * t) (by rw [chunkLen_eq]; omega) rfl
    · exact ha (2 * t + 1) (by rw [chunkLen_eq]; omega) (by rw [Nat.add_assoc])

/-! ### one chunk -/

theorem ups_spec {L b : ℕ} (v : ℕ → M) (k : ℕ) (hk : k ≤ L) {tr : List (ScanAct M)} (m : (ScanMem M))
    (h : Phased ((List.range k).map (fun j => allThreads (2 ^ L) (scanUp L b j))) tr)
    (h0 : UpInv v (chunkLen L) 0 (fun i => m (sh b i))) :
    UpInv v (chunkLen L) k (fun i => runActs m tr (sh b i)) ∧
    ∀ a, (∀ t, a ≠ reg b t) → (∀ i, a ≠ sh b i) → runActs m tr a = m a := by
  induction k generalizing tr with
  | zero =>
    cases h
    exact ⟨h0, fun a _ _ => rfl⟩
  | succ k ih =>
    rw [List.range_succ, List.map_append] at h
    obtain ⟨t1, t2, rfl, p1, p2⟩ := h.append_inv
    obtain ⟨i1, i2⟩ := ih (by omega) p1
    rw [List.map_singleton] at p2
    cases p2 with
    | cons hi hn =>
      cases hn
      rw [List.append_nil, runActs_append]
      obtain ⟨u1, u2⟩ := up_phase hi (runActs m t1)
      constructor
      · refine upInv_succ v (by omega) _ _ i1 u1 ?_
        intro i hi'
        refine u2 _ (by simp) ?_
        intro t ht e
        simp only [sh.injEq, true_and] at e
        exact hi' t ht e
      · intro a ha hb
        rw [u2 a ha (fun t _ => hb _), i2 a ha hb]

theorem downs_spec {L b : ℕ} (v : ℕ → M) (k : ℕ) (hk : k ≤ L + 1) {tr : List (ScanAct M)} (m : (ScanMem M))
    (h : Phased ((List.range k).map (fun j => allThreads (2 ^ L) (scanDown L b (L - j)))) tr)
    (h0 : DownInv v (chunkLen L) (L + 1) (fun i => m (sh b i))) :
    DownInv v (chunkLen L) (L + 1 - k) (fun i => runActs m tr (sh b i)) ∧
    ∀ a, (∀ t, a ≠ reg b t) → (∀ i, a ≠ sh b i) → runActs m tr a = m a := by
  induction k generalizing tr with
  | zero =>
    cases h
    exact ⟨h0, fun a _ _ => rfl⟩
  | succ k ih =>
    rw [List.range_succ, List.map_append] at h
    obtain ⟨t1, t2, rfl, p1, p2⟩ := h.append_inv
    obtain ⟨i1, i2⟩ := ih (by omega) p1
    rw [List.map_singleton] at p2
    cases p2 with
    | cons hi hn =>
      cases hn
      rw [List.append_nil, runActs_append]
      obtain ⟨u1, u2⟩ := down_phase hi (runActs m t1)
      constructor
      · rw [show L + 1 - (k + 1) = L - k by omega]
        rw [show L + 1 - k = L - k + 1 by omega] at i1
        refine downInv_step v (by omega) _ _ i1 u1 ?_
        intro i hi'
        refine u2 _ (by simp) ?_
        intro t ht
        simp only [ne_eq, sh.injEq, true_and]
        exact hi' t ht
      · intro a ha hb
        rw [u2 a ha (fun t _ => ⟨hb _, hb _⟩), i2 a ha hb]

/-- One chunk, any schedule of the block: exclusive prefix sums and their total. -/
theorem chunk_spec {L N b c : ℕ} {tr : List (ScanAct M)} (h : Phased (chunkPhases L N b c) tr)
    (hc : c * chunkLen L < N) (m : (ScanMem M)) :
    (∀ i < chunkLen L, c * chunkLen L + i < N → runActs m tr (el (c * chunkLen L + i)) =
      ∑ x ∈ Finset.range i, m (el (c * chunkLen L + x))) ∧
    (runActs m tr (cn c) = ∑ x ∈ Finset.range (min (chunkLen L) (N - c * chunkLen L)),
      m (el (c * chunkLen L + x))) ∧
    (∀ a, (∀ t, a ≠ reg b t) → (∀ i, a ≠ sh b i) → a ≠ cn c →
      (∀ i < chunkLen L, a ≠ el (c * chunkLen L + i)) → runActs m tr a = m a) := by
  have hp := chunkLen_pos L
  unfold chunkPhases at h
  obtain ⟨t1, tw, rfl, h, hw⟩ := h.append_inv
  obtain ⟨t2, tc, rfl, h, hcnt⟩ := h.append_inv
  obtain ⟨t3, td, rfl, h, hd⟩ := h.append_inv
  obtain ⟨t4, tcl, rfl, h, hcl⟩ := h.append_inv
  obtain ⟨tl, tu, rfl, hl, hu⟩ := h.append_inv
  replace hw := hw.single_inv
  replace hcnt := hcnt.single_inv
  replace hcl := hcl.single_inv
  replace hl := hl.single_inv
  simp only [runActs_append]
  set v : ℕ → M := fun i => if c * chunkLen L + i < N then m (el (c * chunkLen L + i)) else 0 with hv
  obtain ⟨l1, l2⟩ := load_phase hl m
  obtain ⟨u1, u2⟩ := ups_spec v L le_rfl (runActs m tl) hu (upInv_zero v _ _ l1)
  obtain ⟨c1, c2⟩ := clear_phase hcl (runActs (runActs m tl) tu)
  obtain ⟨d1, d2⟩ := downs_spec v (L + 1) le_rfl (runActs (runActs (runActs m tl) tu) tcl) hd
    (downInv_start v _ _ u1 c1 (fun i hi => c2 _ (by simp) (by simpa using hi)))
  obtain ⟨n1, n2⟩ := count_phase hcnt hc (runActs (runActs (runActs (runActs m tl) tu) tcl) td)
  obtain ⟨w1, w2⟩ := write_phase hw
    (runActs (runActs (runActs (runActs (runActs m tl) tu) tcl) td) tc)
  rw [Nat.sub_self] at d1
  have hpre := fun i hi => downInv_zero d1 i hi
  -- global memory is unchanged until the last phase
  have hel : ∀ i, runActs (runActs (runActs (runActs m tl) tu) tcl) td (el i) = m (el i) := by
    intro i
    rw [d2 _ (by simp) (by simp), c2 _ (by simp) (by simp), u2 _ (by simp) (by simp), l2 _ (by simp)]
  have hsum : ∀ k, c * chunkLen L + k ≤ N → ∑ x ∈ Finset.range k, v x =
      ∑ x ∈ Finset.range k, m (el (c * chunkLen L + x)) := by
    intro k hk
    refine Finset.sum_congr rfl (fun x hx => ?_)
    rw [hv]
    dsimp only
    rw [if_pos (by have := Finset.mem_range.mp hx; omega)]
  refine ⟨?_, ?_, ?_⟩
  · intro i hi hN
    rw [w1 i hi hN, n2 _ (by simp) (by simp), ← hsum i (by omega)]
    exact hpre i hi
  · rw [w2 _ (by simp), n1, hel]
    set e := min (chunkLen L - 1) (N - c * chunkLen L - 1) with he
    have he1 : min (chunkLen L) (N - c * chunkLen L) = e + 1 := by omega
    rw [he1, ← hsum (e + 1) (by omega), Finset.sum_range_succ]
    have e2 : v e = m (el (c * chunkLen L + e)) := by
      rw [hv]
      dsimp only
      rw [if_pos (by omega)]
    rw [e2]
    congr 1
    exact hpre e (by omega)
  · intro a ha hs hcn he
    rw [w2 a he, n2 a ha hcn, d2 a ha hs, c2 a ha (hs _), u2 a ha hs, l2 a hs]

end PC
