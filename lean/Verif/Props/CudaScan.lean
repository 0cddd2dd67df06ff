import Verif.CudaScanLemmas2

/-!
# Property C57: the parallel scan
-/

set_option linter.unusedVariables false
set_option linter.unusedSectionVars false
set_option linter.constructorNameAsVariable false

namespace PC

open ScanAddr

variable {M : Type*} [CommRing M]

/-- The block size of the propagation kernel, `warpSize*2` (scan_alg_kernels.cu.cc:232). -/
abbrev propBlock : ℕ := 64

/-- **C57 (partial).** For arrays of any length up to `512 + 64 · W`, where `W` is
the largest number of simultaneously launched blocks: after every run of the
scan, under every schedule of threads and blocks at every level, the array
holds the exclusive prefix sums and the returned value is the total.  Missing:
longer arrays, see `C57_scan_false`. -/
theorem C57_scan_partial (W N : ℕ) (hW : 0 < W) (hN : 0 < N) (hone : N ≤ 512 + W * propBlock)
    (v out : ℕ → M) (total : M) (h : ScanRun scanLog W propBlock N v out total) :
    (∀ i < N, out i = ∑ x ∈ Finset.range i, v x) ∧ total = ∑ x ∈ Finset.range N, v x := by
  obtain ⟨lv, lv', c, k, h1, h2, h3, h4, rfl⟩ := h
  obtain ⟨out', rest, k', c', e1, e2, e3, e4⟩ := scan_main hW (by norm_num)
    (show propBlock ∣ chunkLen scanLog by decide) h1 h2 hN hone
  subst e1
  rw [List.head?_cons] at h3
  cases h3
  refine ⟨e3, ?_⟩
  cases rest with
  | nil => simp at e2
  | cons a l =>
    rw [List.getLast?_cons_cons, e2] at h4
    cases h4
    exact e4

/-- Every array can be scanned: the host loops end and no launch gets stuck. -/
theorem C57_run_exists (W N : ℕ) (v : ℕ → M) :
    ∃ out total, ScanRun scanLog W propBlock N v out total := by
  obtain ⟨lv, h1⟩ := exists_levels scanLog W N v
  obtain ⟨x, l, rfl, hx⟩ : ∃ x l, lv = x :: l ∧ x.1 = N := by
    cases h1 with
    | last h he => exact ⟨_, _, rfl, rfl⟩
    | step h he next => exact ⟨_, _, rfl, rfl⟩
  obtain ⟨y, l', h2⟩ := exists_propagate scanLog W propBlock x l
  have hy : y.1 = N := by
    cases h2 with
    | single => exact hx
    | cons h hp => exact hx
  obtain ⟨N', out⟩ := y
  dsimp only at hy
  subst hy
  obtain ⟨⟨k, c⟩, hl⟩ : ∃ z, ((N', out) :: l').getLast? = some z :=
    ⟨_, List.getLast?_eq_some_getLast (by simp)⟩
  exact ⟨out, c 0, _, _, c, k, h1, h2, rfl, hl, rfl⟩

theorem propagate_last {L W P : ℕ} {lv lv' : List (ℕ × (ℕ → M))} (h : ScanPropagate L W P lv lv') :
    lv'.getLast? = lv.getLast? := by
  induction h with
  | single x => rfl
  | @cons N N1 v v' c rest rest' h hp ih =>
    rw [List.getLast?_cons_cons, ih]
    cases rest with
    | nil => cases h
    | cons a l => rw [List.getLast?_cons_cons]

theorem levels_total {L W : ℕ} (hW : 0 < W) {N : ℕ} {v : ℕ → M} {lv : List (ℕ × (ℕ → M))}
    (h : ScanLevels L W N v lv) (hN : 0 < N) :
    ∃ k c, lv.getLast? = some (k, c) ∧ c 0 = ∑ x ∈ Finset.range N, v x := by
  have hl := chunkLen_pos L
  induction h with
  | @last N v v' c hk he =>
    refine ⟨_, c, rfl, ?_⟩
    have hle : N ≤ chunkLen L := by
      have := le_execBlocks_mul (n := N) hl
      have h2 : execBlocks N (chunkLen L) * chunkLen L ≤ 1 * chunkLen L :=
        Nat.mul_le_mul_right _ (by omega)
      omega
    rw [(kernelPass_spec hW hN hk).2 0 ((lt_execBlocks hl).mpr (by omega))]
    simp only [Nat.zero_mul, Nat.sub_zero, Nat.zero_add]
    rw [Nat.min_eq_right hle]
  | @step N v v' c rest hk he next ih =>
    obtain ⟨k, c2, e1, e2⟩ := ih (by omega)
    refine ⟨k, c2, ?_, ?_⟩
    · cases rest with
      | nil => cases next
      | cons a l => rw [List.getLast?_cons_cons]; exact e1
    · rw [e2]
      have := sum_chunks (N := N) v _ le_rfl hl
      rw [Nat.min_eq_right (le_execBlocks_mul hl)] at this
      rw [← this]
      exact Finset.sum_congr rfl (fun k hk' => (kernelPass_spec hW hN hk).2 k (Finset.mem_range.mp hk'))

/-- **C57, total.** The returned value is the sum of the array, for arrays of any
length, every launch geometry and every schedule. -/
theorem C57_total (W N : ℕ) (hW : 0 < W) (hN : 0 < N) (v out : ℕ → M) (total : M)
    (h : ScanRun scanLog W propBlock N v out total) : total = ∑ x ∈ Finset.range N, v x := by
  obtain ⟨lv, lv', c, k, h1, h2, h3, h4, rfl⟩ := h
  obtain ⟨k', c', e1, e2⟩ := levels_total hW h1 hN
  rw [propagate_last h2, e1] at h4
  cases h4
  exact e2

/-- A case with all hypotheses: any array of 1500 elements on a device that can
launch 16 blocks (three chunks, two levels, one propagation) has a run. -/
example (v : ℕ → ℤ) : ∃ out total, ScanRun scanLog 16 propBlock 1500 v out total ∧
    1500 ≤ 512 + 16 * propBlock ∧ out 1499 = ∑ x ∈ Finset.range 1499, v x := by
  obtain ⟨out, total, h⟩ := C57_run_exists 16 1500 v
  exact ⟨out, total, h, by norm_num, (C57_scan_partial 16 1500 (by norm_num) (by norm_num)
    (by norm_num) v out total h).1 1499 (by norm_num)⟩

/-! ### the race in the propagation kernel -/

theorem runActs_keep {A V : Type*} (m : A → V) (tr : List ((A → V) → (A → V))) (a : A)
    (h : ∀ act ∈ tr, ∀ m, act m a = m a) : runActs m tr a = m a := by
  induction tr generalizing m with
  | nil => rfl
  | cons act tr ih =>
    rw [runActs_cons, ih _ (fun x hx => h x (List.mem_cons_of_mem _ hx)), h act List.mem_cons_self]

theorem Phased.seq {α : Type*} (phs : List (List (List α))) :
    Phased phs (phs.map List.flatten).flatten := by
  induction phs with
  | nil => exact .nil
  | cons p phs ih => exact .cons (Interleave.exists_seq p) ih

theorem propPhase_keep {L N P TB b k t : ℕ} {act : (ScanAct ℤ)} (h : act ∈ propPhase L N P TB b k t)
    {a : ScanAddr} (h1 : a ≠ reg b t) (h2 : a ≠ sh b 0) (h3 : 1 ≤ k → a ≠ el (propCur L P TB b t (k - 1)))
    (m : (ScanMem ℤ)) : act m a = m a := by
  unfold propPhase at h
  rcases List.mem_append.mp h with h | h
  · split at h
    · rename_i hk
      rcases List.mem_cons.mp h with rfl | h
      · exact assign_ne _ _ h1
      · rcases List.mem_cons.mp h with rfl | h
        · exact assign_ne _ _ (h3 hk.1)
        · cases h
    · cases h
  · split at h
    · rcases List.mem_cons.mp h with rfl | h
      · exact assign_ne _ _ h2
      · cases h
    · cases h

/-- The phases of the only block, thread after thread. -/
def raceTrace (iters : ℕ) : List (ScanAct ℤ) :=
  ((propPhases 8 1088 64 1 0 iters).map List.flatten).flatten

theorem race_value (r : ℕ) (m : (ScanMem ℤ)) :
    runActs m (raceTrace (8 + r)) (el 961) = m (el 961) + m (cn 2) := by
  have hsplit : propPhases (M := ℤ) 8 1088 64 1 0 (8 + r) =
      (List.range 8).map (fun k => allThreads 64 (propPhase 8 1088 64 1 0 k)) ++
      (allThreads 64 (propPhase 8 1088 64 1 0 8) ::
        (List.range r).map (fun k => allThreads 64 (propPhase 8 1088 64 1 0 (9 + k)))) := by
    unfold propPhases
    rw [show 8 + r + 1 = 8 + (1 + r) by omega, List.range_add, List.map_append,
      List.range_add, List.map_append, List.map_append]
    simp only [List.map_map]
    congr 1
    show _ = [_] ++ _
    congr 1
    refine List.map_congr_left (fun k _ => ?_)
    simp only [Function.comp]
    rw [show 8 + (1 + k) = 9 + k by omega]
  have hcur : ∀ t k, propCur 8 64 1 0 t k = t + 512 + k * 64 := by
    intro t k
    unfold propCur chunkLen
    norm_num
  have hmem : ∀ (n k0 : ℕ), ∀ act ∈ (((List.range n).map
      (fun k => allThreads 64 (propPhase (M := ℤ) 8 1088 64 1 0 (k0 + k)))).map List.flatten).flatten,
      ∃ k < n, ∃ t < 64, act ∈ propPhase 8 1088 64 1 0 (k0 + k) t := by
    intro n k0 act hact
    simp only [List.map_map, List.mem_flatten, List.mem_map, List.mem_range, Function.comp] at hact
    obtain ⟨l, ⟨k, hk, rfl⟩, hl⟩ := hact
    obtain ⟨p, hp, hap⟩ := List.mem_flatten.mp hl
    unfold allThreads at hp
    obtain ⟨t, ht, rfl⟩ := List.mem_map.mp hp
    exact ⟨k, hk, t, List.mem_range.mp ht, hap⟩
  unfold raceTrace
  rw [hsplit, List.map_append, List.map_cons, List.flatten_append, List.flatten_cons,
    runActs_append, runActs_append]
  -- later phases
  rw [runActs_keep _ _ (el 961) (by
    intro act hact m'
    obtain ⟨k, hk, t, ht, hm⟩ := hmem r 9 act hact
    refine propPhase_keep hm (by simp) (by simp) (fun _ => ?_) m'
    rw [hcur]
    simp only [ne_eq, el.injEq]
    omega)]
  -- earlier phases
  set m1 := runActs m (((List.range 8).map
    (fun k => allThreads 64 (propPhase 8 1088 64 1 0 k))).map List.flatten).flatten with hm1
  have hk1 : ∀ a, (∀ t, a ≠ reg 0 t) → a ≠ sh 0 0 → (∀ k < 7, ∀ t < 64, a ≠ el (t + 512 + k * 64)) →
      m1 a = m a := by
    intro a h1 h2 h3
    rw [hm1]
    refine runActs_keep _ _ a ?_
    intro act hact m'
    have h0 := hmem 8 0 act
    simp only [Nat.zero_add] at h0
    obtain ⟨k, hk, t, ht, hm⟩ := h0 hact
    refine propPhase_keep hm (h1 t) h2 (fun hk1 => ?_) m'
    rw [hcur]
    exact h3 (k - 1) (by omega) t ht
  -- the phase of the race
  have hph : (allThreads 64 (propPhase (M := ℤ) 8 1088 64 1 0 8)).flatten =
      propPhase 8 1088 64 1 0 8 0 ++ (propPhase 8 1088 64 1 0 8 1 ++
        ((List.range 62).map (fun t => propPhase 8 1088 64 1 0 8 (2 + t))).flatten) := by
    unfold allThreads
    rw [show (64 : ℕ) = 2 + 62 by norm_num, List.range_add, List.map_append, List.flatten_append]
    simp only [List.map_map]
    rw [← List.append_assoc]
    congr 1
  rw [hph, runActs_append, runActs_append, runActs_keep _ _ (el 961) (by
    intro act hact m'
    obtain ⟨p, hp, hap⟩ := List.mem_flatten.mp hact
    obtain ⟨t, ht, rfl⟩ := List.mem_map.mp hp
    have := List.mem_range.mp ht
    refine propPhase_keep hap (by simp) (by simp) (fun _ => ?_) m'
    rw [hcur]
    simp only [ne_eq, el.injEq]
    omega)]
  have e0 : propPhase (M := ℤ) 8 1088 64 1 0 8 0 =
      [assign (reg 0 0) (fun m => m (sh 0 0)), assign (el 960) (fun m => m (el 960) + m (reg 0 0)),
       assign (sh 0 0) (fun m => m (cn 2))] := by
    unfold propPhase
    rw [hcur, hcur, if_pos (by omega), if_pos (by omega)]
    rfl
  have e1 : propPhase (M := ℤ) 8 1088 64 1 0 8 1 =
      [assign (reg 0 1) (fun m => m (sh 0 0)), assign (el 961) (fun m => m (el 961) + m (reg 0 1))] := by
    unfold propPhase
    rw [hcur, if_pos (by omega), if_neg (by omega)]
    rfl
  rw [e0, e1]
  simp only [runActs_cons, runActs_nil]
  rw [assign_self, assign_ne _ _ (by simp), assign_ne _ _ (by simp), assign_ne _ _ (by simp),
    assign_ne _ _ (by simp), assign_self, assign_self, assign_ne _ _ (by simp), assign_ne _ _ (by simp),
    hk1 _ (by simp) (by simp) ?_, hk1 _ (by simp) (by simp) (by simp)]
  intro k hk t ht
  simp only [ne_eq, el.injEq]
  omega

/-- Non-negative on the array and the counters. -/
def RaceGood (m : (ScanMem ℤ)) : Prop :=
  (∀ i < 1088, 0 ≤ m (el i)) ∧ (∀ i < 3, 0 ≤ m (cn i)) ∧ (∀ b i, 0 ≤ m (sh b i)) ∧ ∀ b t, 0 ≤ m (reg b t)

theorem RaceGood.act {b k t : ℕ} {act : (ScanAct ℤ)} (h : act ∈ propPhase 8 1088 64 1 b k t) {m : (ScanMem ℤ)}
    (hm : RaceGood m) : RaceGood (act m) := by
  obtain ⟨g1, g2, g3, g4⟩ := hm
  have key : ∀ (dst : ScanAddr) (f : (ScanMem ℤ) → ℤ), 0 ≤ f m → RaceGood (assign dst f m) := by
    intro dst f hf
    have hh : ∀ a, (a ≠ dst → 0 ≤ m a) → 0 ≤ assign dst f m a := by
      intro a ha
      by_cases e : a = dst
      · rw [e, assign_self]; exact hf
      · rw [assign_ne _ _ e]; exact ha e
    exact ⟨fun i hi => hh _ (fun _ => g1 i hi), fun i hi => hh _ (fun _ => g2 i hi),
      fun b i => hh _ (fun _ => g3 b i), fun b t => hh _ (fun _ => g4 b t)⟩
  unfold propPhase at h
  rcases List.mem_append.mp h with h | h
  · split at h
    · rename_i hk
      rcases List.mem_cons.mp h with rfl | h
      · exact key _ _ (g3 _ _)
      · rcases List.mem_cons.mp h with rfl | h
        · exact key _ _ (add_nonneg (g1 _ hk.2) (g4 _ _))
        · cases h
    · cases h
  · split at h
    · rename_i hk
      rcases List.mem_cons.mp h with rfl | h
      · refine key _ _ (g2 _ ?_)
        have hl : chunkLen 8 = 512 := by decide
        rw [hl]
        omega
      · cases h
    · cases h

theorem RaceGood.trace (n : ℕ) {m : (ScanMem ℤ)} (hm : RaceGood m) : RaceGood (runActs m (raceTrace n)) := by
  have key : ∀ (tr : List (ScanAct ℤ)) (m : (ScanMem ℤ)),
      (∀ act ∈ tr, ∃ k t, act ∈ propPhase 8 1088 64 1 0 k t) → RaceGood m → RaceGood (runActs m tr) := by
    intro tr
    induction tr with
    | nil => intro m _ hm; exact hm
    | cons act tr ih =>
      intro m h hm
      obtain ⟨k, t, ha⟩ := h act List.mem_cons_self
      exact ih _ (fun x hx => h x (List.mem_cons_of_mem _ hx)) (RaceGood.act ha hm)
  refine key _ m ?_ hm
  intro act hact
  unfold raceTrace propPhases at hact
  obtain ⟨l, hl, h1⟩ := List.mem_flatten.mp hact
  obtain ⟨p, hp, rfl⟩ := List.mem_map.mp hl
  obtain ⟨k, _, rfl⟩ := List.mem_map.mp hp
  obtain ⟨q, hq, h2⟩ := List.mem_flatten.mp h1
  unfold allThreads at hq
  obtain ⟨t, _, rfl⟩ := List.mem_map.mp hq
  exact ⟨k, t, h2⟩

/-- A run on 1088 ones, on a device that launches one block, that leaves 1473
instead of 961 at position 961. -/
theorem scan_race (v : ℕ → ℤ) (hv : ∀ i < 1088, v i = 1) :
    ∃ out total, ScanRun scanLog 1 propBlock 1088 v out total ∧ out 961 = 1473 ∧ ∀ i < 1088, 0 ≤ out i := by
  obtain ⟨v', c, hk⟩ := exists_kernelPass 8 1 1088 v
  obtain ⟨c', c2, hk2⟩ := exists_kernelPass 8 1 3 c
  have e3 : execBlocks 1088 (chunkLen 8) = 3 := by decide
  have e1 : execBlocks 3 (chunkLen 8) = 1 := by decide
  have hlev : ScanLevels 8 1 1088 v [(1088, v'), (3, c'), (1, c2)] := by
    refine .step hk (by rw [e3]; norm_num) ?_
    rw [e3]
    have := ScanLevels.last hk2 (by rw [e1]; norm_num)
    rw [e1] at this
    exact this
  have hl : chunkLen 8 = 512 := by decide
  obtain ⟨s1, s2⟩ := kernelPass_spec (by norm_num) (by norm_num) hk
  obtain ⟨s3, _⟩ := kernelPass_spec (by norm_num) (by norm_num) hk2
  have hsum : ∀ a n, a + n ≤ 1088 → ∑ x ∈ Finset.range n, v (a + x) = n := by
    intro a n h
    rw [Finset.sum_congr rfl (fun x hx => hv (a + x) (by have := Finset.mem_range.mp hx; omega))]
    simp
  have hv' : ∀ i < 1088, v' i = ((i % 512 : ℕ) : ℤ) := by
    intro i hi
    rw [s1 i hi, hl, hsum _ _ (by omega)]
  have hc : ∀ i < 3, c i = ((min 512 (1088 - i * 512) : ℕ) : ℤ) := by
    intro i hi
    rw [s2 i (by rw [e3]; exact hi), hl, hsum _ _ (by omega)]
  have hc' : ∀ i < 3, c' i = ((512 * i : ℕ) : ℤ) := by
    intro i hi
    rw [s3 i hi, hl, Nat.mod_eq_of_lt (by omega), Nat.div_eq_of_lt (by omega)]
    have h0 := hc 0 (by norm_num)
    have h1 := hc 1 (by norm_num)
    norm_num at h0 h1
    rcases (by omega : i = 0 ∨ i = 1 ∨ i = 2) with rfl | rfl | rfl
    · simp
    · simp [h0]
    · simp [Finset.sum_range_succ, h0, h1]
  let m : (ScanMem ℤ) := fun a => match a with | el i => v' i | cn i => c' i | _ => 0
  have hgood : RaceGood m := by
    refine ⟨fun i hi => ?_, fun i hi => ?_, fun _ _ => le_refl _, fun _ _ => le_refl _⟩
    · show 0 ≤ v' i
      rw [hv' i hi]; positivity
    · show 0 ≤ c' i
      rw [hc' i hi]; positivity
  obtain ⟨T, hT, hval, hpos⟩ : ∃ T, Phased (propPhases 8 1088 64 1 0 1088) T ∧
      runActs m T (el 961) = m (el 961) + m (cn 2) ∧ RaceGood (runActs m T) :=
    ⟨raceTrace 1088, Phased.seq _, race_value 1080 m, hgood.trace 1088⟩
  have hprop : PropPass 8 1 64 1088 c' v' (fun i => runActs m T (el i)) := by
    unfold PropPass
    rw [if_pos (by decide)]
    have hlb : launchBlocks 1 (execBlocks (1088 - chunkLen 8) 64) = 1 := by decide
    rw [hlb]
    refine ⟨m, _, fun i => rfl, fun i => rfl, ⟨[T], T, rfl, ?_, ?_, rfl⟩, fun i => rfl⟩
    · intro b p hp
      have hb : b = 0 := by
        have := (List.getElem?_eq_some_iff.mp hp).1
        simpa using this
      subst hb
      rw [List.getElem?_cons_zero] at hp
      cases hp
      exact hT
    · have := Interleave.exists_seq [T]
      rw [List.flatten_singleton] at this
      exact this
  have hrun : ScanRun scanLog 1 propBlock 1088 v (fun i => runActs m T (el i)) (c2 0) :=
    ⟨_, _, c2, 1, hlev, .cons (.cons (.single (1, c2)) (by
      unfold PropPass
      rw [if_neg (by decide)])) hprop, rfl, rfl, rfl⟩
  refine ⟨_, _, hrun, ?_, hpos.1⟩
  show runActs m T (el 961) = 1473
  rw [hval]
  show v' 961 + c' 2 = 1473
  rw [hv' 961 (by norm_num), hc' 2 (by norm_num)]
  norm_num

/-- **C57 fails when a block of the propagation kernel loops**: there is no barrier
after the shared block offset is read, so thread 0 may store the offset of the
next iteration before another thread has used the current one.  On a device
that launches one block, an array of 1088 ones can end with 1473 instead of 961
at position 961. -/
theorem C57_scan_false : ¬ ∀ (W N : ℕ), 0 < W → 0 < N → ∀ (v out : ℕ → ℤ) (total : ℤ),
    ScanRun scanLog W propBlock N v out total → ∀ i < N, out i = ∑ x ∈ Finset.range i, v x := by
  intro h
  obtain ⟨out, total, hrun, h1, _⟩ := scan_race (fun _ => 1) (fun _ _ => rfl)
  have hbad := h 1 1088 (by norm_num) (by norm_num) _ _ _ hrun 961 (by norm_num)
  rw [h1] at hbad
  simp at hbad

end PC
