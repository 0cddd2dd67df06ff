import Verif.SearchInt
import Verif.Props.CudaStore
import Verif.Props.OpChecks

/-!
# C106: the neighbour search on the GPU for large clouds
-/

set_option linter.unusedVariables false

namespace PC

/-! ### arithmetic -/

theorem u32_of_lt {x : ℕ} (h : x < 2 ^ 32) : u32 x = x := Nat.mod_eq_of_lt h

theorem findIters32_eq_mod (S R : ℕ) : findIters32 S R = findIters S R % 2 ^ 32 := by
  unfold findIters32 findIters u32
  rw [Nat.mod_mul_mod]

theorem findIters32_eq {S R : ℕ} (h : S * R * 16 < 2 ^ 32) : findIters32 S R = findIters S R := by
  rw [findIters32_eq_mod]
  exact Nat.mod_eq_of_lt h

theorem countPasses32_iff {S R B W : ℕ} (h : S * R * 16 < 2 ^ 32) (hit : ℕ → ℕ → Bool)
    (rgs : List (ℕ → ℕ × ℕ)) (cnt cnt' : ℕ → ℕ) :
    CountPasses32 S R B W hit rgs cnt cnt' ↔ CountPasses S R B W hit rgs cnt cnt' := by
  constructor
  · intro h'
    induction h' with
    | nil cnt => exact .nil cnt
    | cons h1 _ ih =>
      refine .cons ?_ ih
      unfold CountKernel32 at h1
      rw [findIters32_eq h] at h1
      exact h1
  · intro h'
    induction h' with
    | nil cnt => exact .nil cnt
    | cons h1 _ ih =>
      refine .cons ?_ ih
      unfold CountKernel32
      rw [findIters32_eq h]
      exact h1

theorem storePasses32_iff {S R T : ℕ} (h : S * R * 16 < 2 ^ 32) (hit : ℕ → ℕ → Bool)
    (rgs : List (ℕ → ℕ × ℕ)) (m m' : StoreMem) :
    StorePasses32 S R T hit rgs m m' ↔ StorePasses S R T hit rgs m m' := by
  have e : ∀ rg, storeProg32 S R T rg hit = storeProg S R T rg hit := by
    intro rg; funext t
    unfold storeProg32 storeProg
    rw [findIters32_eq h]
  constructor
  · intro h'
    induction h' with
    | nil m => exact .nil m
    | cons h1 _ ih =>
      refine .cons ?_ ih
      unfold StoreKernel32 at h1
      rw [e] at h1
      exact h1
  · intro h'
    induction h' with
    | nil m => exact .nil m
    | cons h1 _ ih =>
      refine .cons ?_ ih
      unfold StoreKernel32
      rw [e]
      exact h1

/-- Samples whose iterations all lie at or above the loop bound. -/
theorem no_pairs_above {R M s : ℕ} (hR : 0 < R) (h : M ≤ s * (R * 16)) (rg : ℕ → ℕ × ℕ)
    (hit : ℕ → ℕ → Bool) (i : ℕ) (hi : i < M) (x : ℕ × ℕ) (hx : x ∈ iterPairs R rg hit i) : x.2 ≠ s := by
  unfold iterPairs at hx
  obtain ⟨p, _, rfl⟩ := List.mem_map.mp hx
  intro e
  have e' : i / (R * 16) = s := e
  have := Nat.div_mul_le_self i (R * 16)
  rw [e'] at this
  omega

/-- The loop bound of the machine is below all iterations of the last sample once
the product does not fit. -/
theorem findIters32_le {S R : ℕ} (hR : R * 16 ≤ 2 ^ 32) (h : 2 ^ 32 ≤ S * R * 16) :
    findIters32 S R ≤ (S - 1) * (R * 16) := by
  rw [findIters32_eq_mod]
  have e : findIters S R = S * (R * 16) := by unfold findIters threadsPerRange; ring
  have h1 : findIters S R % 2 ^ 32 + 2 ^ 32 ≤ findIters S R := by
    have := Nat.mod_add_div (findIters S R) (2 ^ 32)
    have hd : 1 ≤ findIters S R / 2 ^ 32 := by
      rw [Nat.le_div_iff_mul_le (by norm_num), e, ← Nat.mul_assoc]
      omega
    nlinarith
  rw [e] at h1 ⊢
  rw [Nat.sub_mul, Nat.one_mul]
  omega

/-- The counting kernel has a run for every loop bound. -/
theorem exists_countLaunch (M R B W : ℕ) (hit : ℕ → ℕ → Bool) (rg : ℕ → ℕ × ℕ) (cnt : ℕ → ℕ) :
    ∃ cnt', CountLaunch M R B W rg hit cnt cnt' := by
  have hb : ∀ b, ∃ (l : List (ℕ × ℕ)) (sh : ℕ → ℕ) (btr : List CountAct),
      Phased (countBlock R B M (launchBlocks W (execBlocks M B)) rg hit b) btr ∧
        l = (countRun R B sh btr).2 := fun b => by
    obtain ⟨btr, h⟩ := Phased.exists_seq (countBlock R B M (launchBlocks W (execBlocks M B)) rg hit b)
    exact ⟨_, fun _ => 0, btr, h, rfl⟩
  choose l hl using hb
  refine ⟨_, ((List.range (launchBlocks W (execBlocks M B))).map l), _, ?_, ?_,
    Interleave.exists_seq _, rfl⟩
  · simp
  · intro b l' hb
    simp only [List.getElem?_map, Option.map_eq_some_iff] at hb
    obtain ⟨x, hx, rfl⟩ := hb
    have : x = b := by
      rw [List.getElem?_eq_some_iff] at hx
      obtain ⟨h, e⟩ := hx
      simpa using e.symm
    subst this
    exact hl x

theorem storeKernel32_no {S R T s : ℕ} (hR : 0 < R) (hs : findIters32 S R ≤ s * (R * 16))
    (rg : ℕ → ℕ × ℕ) (hit : ℕ → ℕ → Bool) (m m' : StoreMem) (h : StoreKernel32 S R T rg hit m m')
    (h0 : ∀ w ∈ m.writes, w.2.2 ≠ s) : (∀ w ∈ m'.writes, w.2.2 ≠ s) ∧ m'.cnt s = m.cnt s := by
  obtain ⟨ls, h1, _⟩ := h
  let I : StoreMem × (Fin T → StoreThread) → Prop := fun c =>
    (∀ w ∈ c.1.writes, w.2.2 ≠ s) ∧ c.1.cnt s = m.cnt s ∧
    ∀ t, (∀ x ∈ (c.2 t).todo, x.2 ≠ s) ∧ ∀ w, (c.2 t).pend = some w → w.2.2 ≠ s
  have hI : I (m', ls) := by
    refine Steps.invariant I h1 ⟨h0, rfl, ?_⟩ ?_
    · intro t
      refine ⟨?_, by simp⟩
      intro x hx
      obtain ⟨i, hi, hx⟩ := List.mem_flatMap.mp hx
      obtain ⟨_, _, hlt⟩ := (mem_strideLoop t.pos _ _).mp hi
      exact no_pairs_above hR hs rg hit i hlt x hx
    · intro mm lls t mm' l' hi hst
      obtain ⟨i1, i2, i3⟩ := hi
      unfold storeStep at hst
      obtain ⟨i4, i5⟩ := i3 t
      split at hst
      · next w hp =>
        cases hst
        refine ⟨?_, i2, ?_⟩
        · intro w' hw'
          rcases List.mem_append.mp hw' with hw' | hw'
          · exact i1 w' hw'
          · rw [List.mem_singleton] at hw'
            rw [hw']; exact i5 w hp
        · intro t'
          by_cases e : t' = t
          · subst e
            simp only [Function.update_self]
            exact ⟨i4, by simp⟩
          · simp only [Function.update_of_ne e]
            exact i3 t'
      · next x todo hp ht =>
        cases hst
        have hx : x.2 ≠ s := i4 x (by rw [ht]; exact List.mem_cons_self)
        refine ⟨i1, ?_, ?_⟩
        · show Function.update mm.cnt x.2 _ s = _
          rw [Function.update_of_ne (Ne.symm hx)]; exact i2
        · intro t'
          by_cases e : t' = t
          · subst e
            simp only [Function.update_self]
            refine ⟨fun y hy => i4 y (by rw [ht]; exact List.mem_cons_of_mem _ hy), ?_⟩
            intro w hw
            cases hw
            exact hx
          · simp only [Function.update_of_ne e]
            exact i3 t'
      · exact absurd hst (by simp)
  exact ⟨hI.1, hI.2.1⟩

/-! ### the theorems -/

/-- As long as `144` times the number of samples fits into 32 bits, the operation
of the machine has exactly the runs of the model with unbounded integers, launches
the same numbers of blocks and allocates the same buffer; the index of the loop over
the ranges fits into `int`. -/
theorem C106_exact (S : ℕ) (hS : S * 144 < 2 ^ 32) (Wc Ws Wn : ℕ) (rgs : List (ℕ → ℕ × ℕ))
    (hit : ℕ → ℕ → Bool) (total : ℕ) (res : StoreMem) :
    (FindRun32 S 9 Wc Ws Wn rgs hit total res ↔ FindRun S 9 Wc Ws Wn rgs hit total res) ∧
    (∀ bs limited, searchLaunches32 bs S limited = searchLaunches bs S limited) ∧
    rangeBuffer32 S 9 = S * 9 * 2 ∧ rangeIters32 S 9 = S * 9 ∧ S * 9 < 2 ^ 31 := by
  have h : S * 9 * 16 < 2 ^ 32 := by omega
  have e1 : u32 (S * 9) = S * 9 := u32_of_lt (by omega)
  refine ⟨?_, ?_, ?_, e1, by omega⟩
  · unfold FindRun32 FindRun storeThreads32 storeThreads
    simp only [countPasses32_iff h, storePasses32_iff h, findIters32_eq h]
  · intro bs limited
    unfold searchLaunches32 searchLaunches
    rw [findIters32_eq h]
    unfold rangeIters32
    rw [e1]
    rfl
  · unfold rangeBuffer32
    rw [e1, u32_of_lt (by omega)]

/-- The runs of the machine give every sample exactly its neighbours as long as the
bound holds: the result of C58 carries over. -/
theorem C106_find_neighbors_partial {k : ℕ} {K : Type*} [Field K] [LinearOrder K] [IsStrictOrderedRing K]
    [FloorRing K] (g : Grid (k + 2) K) (tab : ℤ → ℕ × ℕ) (ht : BuiltTable g tab)
    (cen : ℕ → ℕ × (Fin (k + 2) → K)) (rad : Fin (k + 2) → K) (hr : ∀ d, 0 < rad d)
    (hle : ∀ d, rad d ≤ g.cs d) (fuel : ℕ) (hf : Nat.clog 2 g.c.n + 1 ≤ fuel)
    (S Wc Ws Wn : ℕ) (hWc : 0 < Wc) (hWs : 0 < Ws) (hWn : 0 < Wn) (hS : 0 < S) (hone : S ≤ 512 + Ws * 64)
    (hS32 : S * 144 < 2 ^ 32)
    (total : ℕ) (res : StoreMem) (h : FindRun32 S offsetsPerBlock Wc Ws Wn
      ((offsetBlocks (k + 2) 1).map (opRanges fuel g tab cen))
      (opHit g cen (fun d => (rad d)⁻¹)) total res) (s : ℕ) (hs : s < S) (i s' : ℕ) :
    (∃ j, (if s = 0 then 0 else res.cnt (s - 1)) ≤ j ∧ j < res.cnt s ∧ res.out j = (i, s')) ↔
      s' = s ∧ ∃ hi : i < g.c.n, g.c.batch (cuPerm g ⟨i, hi⟩) = (cen s).1 ∧
        ∑ d, (((cen s).2 d - g.c.pts (cuPerm g ⟨i, hi⟩) d) / rad d) ^ 2 < 1 := by
  have h' := ((C106_exact S hS32 Wc Ws Wn _ _ total res).1).mp h
  exact (C58_find_neighbors_partial g tab ht cen rad hr hle fuel hf S Wc Ws Wn hWc hWs hWn hS hone
    total res h' s hs).2.2.2.1 i s'

theorem lostCount (S : ℕ) (hS : 2 ^ 32 ≤ S * 144) (Wc : ℕ) (hWc : 0 < Wc)
    (rgs : List (ℕ → ℕ × ℕ)) (hit : ℕ → ℕ → Bool) (cnt : ℕ → ℕ)
    (hc : CountPasses32 S 9 64 Wc hit rgs (fun _ => 0) cnt) : cnt (S - 1) = 0 := by
  have hM : findIters32 S 9 ≤ (S - 1) * (9 * 16) := findIters32_le (by norm_num) (by omega)
  have key : ∀ (rgs : List (ℕ → ℕ × ℕ)) (c c' : ℕ → ℕ), CountPasses32 S 9 64 Wc hit rgs c c' →
      c' (S - 1) = c (S - 1) := by
    intro rgs c c' h
    induction h with
    | nil _ => rfl
    | @cons rg rest c c1 c2 h1 _ ih =>
      rw [ih, countLaunch_sum (by norm_num) hWc rg hit c c1 h1 (S - 1), Nat.add_eq_left,
        List.countP_eq_zero]
      intro x hx
      obtain ⟨i, hi, hx⟩ := List.mem_flatMap.mp hx
      rw [List.mem_range] at hi
      simpa using no_pairs_above (by norm_num) hM rg hit i hi x hx
  exact key _ _ _ hc

/-- Beyond the bound the last sample is never processed: whatever the launch sizes
and the schedule, it gets no neighbour at all. -/
theorem C106_last_sample_lost (S : ℕ) (hS : 2 ^ 32 ≤ S * 144) (Wc Ws Wn : ℕ) (hWc : 0 < Wc)
    (rgs : List (ℕ → ℕ × ℕ)) (hit : ℕ → ℕ → Bool) (total : ℕ)
    (res : StoreMem) (h : FindRun32 S 9 Wc Ws Wn rgs hit total res) :
    (∀ w ∈ res.writes, w.2.2 ≠ S - 1) ∧
    ∀ cnt, CountPasses32 S 9 64 Wc hit rgs (fun _ => 0) cnt → cnt (S - 1) = 0 := by
  have hM : findIters32 S 9 ≤ (S - 1) * (9 * 16) := findIters32_le (by norm_num) (by omega)
  constructor
  · obtain ⟨cnt, start, out, _, _, _, h4⟩ := h
    have key : ∀ (rgs : List (ℕ → ℕ × ℕ)) (m m' : StoreMem),
        StorePasses32 S 9 (storeThreads32 S 9 64 Wn) hit rgs m m' →
        (∀ w ∈ m.writes, w.2.2 ≠ S - 1) → ∀ w ∈ m'.writes, w.2.2 ≠ S - 1 := by
      intro rgs m m' h
      clear h4
      induction h with
      | nil m => exact id
      | @cons rg rest m m1 m2 h1 _ ih =>
        intro h0
        exact ih (storeKernel32_no (by norm_num) hM rg hit m m1 h1 h0).1
    exact key _ _ _ h4 (by simp)
  · exact lostCount S hS Wc hWc rgs hit

/-- The claim without a bound on the number of samples is false. -/
theorem C106_counts_false : ¬ ∀ (S Wc : ℕ), S < 2 ^ 32 → 0 < Wc → ∀ (rgs : List (ℕ → ℕ × ℕ))
    (hit : ℕ → ℕ → Bool) (cnt : ℕ → ℕ), CountPasses32 S 9 64 Wc hit rgs (fun _ => 0) cnt → ∀ s < S,
      cnt s = (rgs.map (fun rg => ∑ r ∈ Finset.range 9,
        ((Finset.Ico (rg (s * 9 + r)).1 (rg (s * 9 + r)).2).filter (fun i => hit s i)).card)).sum := by
  intro h
  obtain ⟨cnt, hc⟩ := exists_countLaunch (findIters32 29826162 9) 9 64 1 (fun _ _ => true)
    (fun i => (i, i + 1)) (fun _ => 0)
  have hp : CountPasses32 29826162 9 64 1 (fun _ _ => true) [fun i => (i, i + 1)] (fun _ => 0) cnt :=
    .cons hc (.nil _)
  have h1 := h 29826162 1 (by norm_num) (by norm_num) _ _ _ hp 29826161 (by norm_num)
  have h2 := (lostCount 29826162 (by norm_num) 1 (by norm_num) _ _ cnt hp)
  rw [show (29826162 - 1 : ℕ) = 29826161 from rfl] at h2
  rw [h2] at h1
  simp at h1

/-- For every multiple of `2^28` samples the counting kernel is launched with zero
blocks, which ends the process. -/
theorem C106_abort (j W bs : ℕ) (hW : 0 < W) (limited : Bool) (hbs : 0 < bs) :
    runLaunches W (searchLaunches32 bs (2 ^ 28 * j) limited) = .error .aborted := by
  have e : findIters32 (2 ^ 28 * j) 9 = 0 := by
    rw [findIters32_eq_mod]
    unfold findIters threadsPerRange
    omega
  refine (runLaunches_abort hW _).mpr ⟨_, ?_, rfl⟩
  unfold searchLaunches32
  rw [e, (execBlocks_eq_zero hbs).mpr rfl]
  simp

/-- Every entry of the access structure is zero before the points are entered if the
number of its cells is below `2^31`. -/
theorem C106_table_zero (B c0 c1 : ℕ) (h : B * c0 * c1 < 2 ^ 31) (mem : ℕ → ℤ) (i : ℕ)
    (hi : i < B * c0 * c1 * 2) : memset0 (dsSize32 B c0 c1) mem i = 0 := by
  have e : dsSize32 B c0 c1 = B * c0 * c1 * 2 % 2 ^ 32 := by
    unfold dsSize32 u32
    rw [Nat.mod_mul_mod, Nat.mul_assoc, Nat.mul_assoc, Nat.mod_mul_mod]
  unfold memset0
  rw [e, Nat.mod_eq_of_lt (by omega), if_pos hi]

/-- It is not with `2^31` cells or more: the last entry keeps what memory held
before. -/
theorem C106_table_false : ¬ ∀ (B c0 c1 : ℕ), 0 < B → 0 < c0 → 0 < c1 → ∀ (mem : ℕ → ℤ) (i : ℕ),
    i < B * c0 * c1 * 2 → memset0 (dsSize32 B c0 c1) mem i = 0 := by
  intro h
  have := h 1 (2 ^ 16) (2 ^ 15) (by norm_num) (by norm_num) (by norm_num) (fun _ => 1) 0 (by norm_num)
  revert this
  decide +kernel

/-! ### instances -/

theorem exists_storeKernel32 (S R T : ℕ) (rg : ℕ → ℕ × ℕ) (hit : ℕ → ℕ → Bool) (m : StoreMem) :
    ∃ m', StoreKernel32 S R T rg hit m m' := by
  obtain ⟨⟨m', ls⟩, h1, h2⟩ := Steps.exists_halted (T := T) storeStep
    (fun l => 2 * l.todo.length + (if l.pend.isSome then 1 else 0)) (by
      intro s l s' l' h
      unfold storeStep at h
      split at h
      · next hp => cases h; simp [hp]
      · next hp ht => cases h; simp [hp, ht]; omega
      · cases h) (m, fun t => ⟨storeProg32 S R T rg hit t, none⟩)
  exact ⟨m', ls, h1, h2⟩

/-- The operation of the machine has a run, also for large clouds. -/
theorem C106_run_exists (S R Wc Ws Wn : ℕ) (hWs : 0 < Ws) (hS : 0 < S) (hone : S ≤ 512 + Ws * 64)
    (rgs : List (ℕ → ℕ × ℕ)) (hit : ℕ → ℕ → Bool) :
    ∃ total res, FindRun32 S R Wc Ws Wn rgs hit total res := by
  have e1 : ∀ (rgs : List (ℕ → ℕ × ℕ)) (c : ℕ → ℕ), ∃ c', CountPasses32 S R 64 Wc hit rgs c c' := by
    intro rgs
    induction rgs with
    | nil => exact fun c => ⟨c, .nil c⟩
    | cons rg rest ih =>
      intro c
      obtain ⟨c1, h1⟩ := exists_countLaunch (findIters32 S R) R 64 Wc hit rg c
      obtain ⟨c2, h2⟩ := ih c1
      exact ⟨c2, .cons h1 h2⟩
  have e2 : ∀ (rgs : List (ℕ → ℕ × ℕ)) (m : StoreMem),
      ∃ m', StorePasses32 S R (storeThreads32 S R 64 Wn) hit rgs m m' := by
    intro rgs
    induction rgs with
    | nil => exact fun m => ⟨m, .nil m⟩
    | cons rg rest ih =>
      intro m
      obtain ⟨m1, h1⟩ := exists_storeKernel32 S R (storeThreads32 S R 64 Wn) rg hit m
      obtain ⟨m2, h2⟩ := ih m1
      exact ⟨m2, .cons h1 h2⟩
  obtain ⟨cnt, h1⟩ := e1 rgs (fun _ => 0)
  obtain ⟨out, tot, h2⟩ := C57_run_exists Ws S (fun i => (cnt i : ℤ))
  obtain ⟨f1, f2⟩ := C57_scan_partial Ws S hWs hS hone _ out tot h2
  obtain ⟨res, h3⟩ := e2 rgs ⟨fun s => ∑ x ∈ Finset.range s, cnt x, []⟩
  refine ⟨∑ x ∈ Finset.range S, cnt x, res, cnt, _, out, h1, ?_, ?_, h3⟩
  · have : ((∑ x ∈ Finset.range S, cnt x : ℕ) : ℤ) = tot := by rw [f2]; push_cast; rfl
    rw [this]; exact h2
  · intro s hs
    rw [f1 s hs]; push_cast; rfl

/-- The largest number of samples within the bound. -/
example : 29826161 * 144 < 2 ^ 32 ∧ 2 ^ 32 ≤ 29826162 * 144 := by norm_num

/-- A search over two samples with one found point each has a run. -/
example : ∃ cnt, CountPasses32 2 9 64 1 (fun s i => decide (s = i)) [fun _ => (0, 2)] (fun _ => 0) cnt := by
  obtain ⟨cnt, h⟩ := exists_countLaunch (findIters32 2 9) 9 64 1 (fun s i => decide (s = i))
    (fun _ => (0, 2)) (fun _ => 0)
  exact ⟨cnt, .cons h (.nil _)⟩

/-- A table of 2 batch elements with 100 by 100 cells. -/
example : 2 * 100 * 100 < 2 ^ 31 ∧ 39999 < 2 * 100 * 100 * 2 := by norm_num

end PC
