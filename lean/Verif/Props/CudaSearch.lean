import Verif.CudaSearchLemmas

/-!
# Properties C55, C56: CUDA neighbour search
-/

set_option linter.unusedVariables false
set_option linter.unusedSectionVars false

namespace PC

/-! ## C55 -/

/-- The tables characterised in C54 satisfy the helper specification. -/
theorem tabSpec_of {k n : ℕ} (nc : Fin (k + 2) → ℕ) (keys : Fin n → ℕ) (tab : ℤ → ℕ × ℕ)
    (ht : IsDsTable (fun i => keys i / ∏ d : Fin k, nc d.succ.succ) (fun s => tab s)) :
    TabSpec (fun d => (nc d : ℤ)) n (keyArr keys) tab := by
  intro s hs
  obtain ⟨s', rfl⟩ := Int.eq_ofNat_of_zero_le hs
  obtain ⟨h1, _, _, h4⟩ := ht s'
  refine ⟨fun i hi => ?_, h4⟩
  have e : cellMultiplier nc 2 = ∏ d : Fin k, nc d.succ.succ := by
    refine ((cellMultiplier_succ nc 1).trans (cellMultiplier_succ (fun i => nc i.succ) 0)).trans ?_
    unfold cellMultiplier
    simp
  rw [keyArr_lt keys hi, cuDsFromKey_cast, e]
  exact (h1 ⟨i, hi⟩).trans Int.ofNat_inj.symm

/-- **C55.** For every descending key array, every table as in C54, every centre
key and every offset (whose last entry is 0): the two binary searches stop after
at most `⌈log₂ n⌉` iterations, and the resulting range contains exactly the
positions whose key lies in the shifted 2D tube and differs by at most 1 from
the key of the shifted cell. If the shifted cell is outside the grid the range is
empty. -/
theorem C55_range {k n : ℕ} (nc : Fin (k + 2) → ℕ) (hn : ∀ d, 0 < nc d) (keys : Fin n → ℕ)
    (hs : ∀ i j, i ≤ j → keys j ≤ keys i) (tab : ℤ → ℕ × ℕ)
    (ht : IsDsTable (fun i => keys i / ∏ d : Fin k, nc d.succ.succ) (fun s => tab s))
    (b : ℕ) (cell : Fin (k + 2) → ℕ) (hcell : ∀ d, cell d < nc d) (off : Fin (k + 2) → ℤ)
    (hoff : off (Fin.last _) = 0) (fuel : ℕ) (hf : Nat.clog 2 n + 1 ≤ fuel) :
    ∃ r, cuFindRange fuel (fun d => (nc d : ℤ)) (keyArr keys) tab 1
        (cuKey (fun d => (cell d : ℤ)) (fun d => (nc d : ℤ)) b) off = some r ∧ r.2 ≤ n ∧
      ∀ i : Fin n, ((r.1 ≤ i.val ∧ i.val < r.2) ↔
        (∀ d, 0 ≤ cell d + off d ∧ cell d + off d < nc d) ∧
        ((keys i / ∏ d : Fin k, nc d.succ.succ : ℕ) : ℤ) =
          (b * nc 0 + (cell 0 + off 0)) * nc 1 + (cell 1 + off 1) ∧
        |(keys i : ℤ) - (b * (∏ d, (nc d : ℤ)) + ∑ d, (cell d + off d) *
            ∏ d' ∈ Finset.univ.filter (d < ·), (nc d' : ℤ))| ≤ 1) := by
  have hn' : ∀ d, 0 < (fun d => (nc d : ℤ)) d := fun d => Int.ofNat_lt.mpr (hn d)
  have hdec := cuDecode_cuKey (fun d => (nc d : ℤ)) (b := b) (cell := fun d => (cell d : ℤ))
    (by positivity) (fun d => ⟨by positivity, Int.ofNat_lt.mpr (hcell d)⟩)
  have hkey : 0 ≤ cuKey (fun d => (cell d : ℤ)) (fun d => (nc d : ℤ)) b := by
    rw [cuKey_cast]; positivity
  obtain ⟨r, h1, h2, h3⟩ := cuFindRange_spec (fun d => (nc d : ℤ)) hn' n (keyArr keys)
    (fun i hi => by rw [keyArr_lt keys hi]; positivity)
    (fun i j hij hj => by
      rw [keyArr_lt keys hj, keyArr_lt keys (lt_of_le_of_lt hij hj)]
      exact Int.ofNat_le.mpr (hs _ _ hij))
    tab (tabSpec_of nc keys tab ht) _ hkey off hoff fuel hf
  refine ⟨r, h1, h2, fun i => ?_⟩
  rw [h3 i.val i.isLt, hdec]
  dsimp only
  have e : cellMultiplier nc 2 = ∏ d : Fin k, nc d.succ.succ := by
    refine ((cellMultiplier_succ nc 1).trans (cellMultiplier_succ (fun i => nc i.succ) 0)).trans ?_
    unfold cellMultiplier
    simp
  rw [keyArr_lt keys i.isLt, cuDsFromKey_cast, e, C53_encode]
  refine and_congr_right (fun hin => ?_)
  rw [(C53_ds_index (fun d => (nc d : ℤ)) b _ (by positivity) hin).2]

/-- The array, the table and the result of a search for cell (1,0,1) of the 2×2×2
grid, no offset: the two keys 4 = (1,0,0) are found. -/
example : IsDsTable (fun i => exKeys i / ∏ d : Fin 1, (![2, 2, 2] : Fin 3 → ℕ) d.succ.succ)
      (fun s => buildDsResult exTrace s) ∧
    cuFindRange 4 ![2, 2, 2] (keyArr exKeys) (buildDsResult exTrace) 1
      (cuKey ![1, 0, 1] ![2, 2, 2] 0) 0 = some (2, 4) := by
  constructor
  · have e : buildDsThreads (D := 3) (fun d => ((![2, 2, 2] : Fin 3 → ℕ) d : ℤ)) (keyArr exKeys) 5 2 =
        [[((2, .x), 2), ((0, .x), 4), ((0, .y), 5)], [((3, .y), 2), ((2, .y), 4)]] := by
      decide +kernel
    refine C54_table (k := 1) (![2, 2, 2] : Fin 3 → ℕ) exKeys (by decide) 2 (by norm_num) exTrace ?_
    rw [e]
    refine .step 1 _ _ rfl (.step 0 _ _ rfl (.step 1 _ _ rfl (.step 0 _ _ rfl (.step 0 _ _ rfl
      (.done ?_)))))
    decide
  · decide +kernel

/-! ## C56 -/

section
variable {K : Type*} [Field K] [LinearOrder K] [IsStrictOrderedRing K] [FloorRing K] {k : ℕ}

theorem cuCell_range {D : ℕ} (p smin : Fin D → K) (nc : Fin D → ℤ) (hn : ∀ d, 0 < nc d)
    (inv : Fin D → K) (d : Fin D) : 0 ≤ cuCell p smin nc inv d ∧ cuCell p smin nc inv d < nc d := by
  have := hn d
  unfold cuCell
  omega

theorem cuNc_pos {D : ℕ} (g : Grid D K) (d : Fin D) : 0 < cuNc g d :=
  Int.ofNat_lt.mpr (numCells_pos g d)

/-- The cell of a point `p` of element `b` in the CUDA code. -/
def cuCellOf {D : ℕ} (g : Grid D K) (b : ℕ) (p : Fin D → K) : Fin D → ℤ :=
  cuCell p (cuSMin g b p) (cuNc g) (fun d => (g.cs d)⁻¹)

theorem cuGridKey_eq {D : ℕ} (g : Grid D K) (b : ℕ) (p : Fin D → K) :
    cuGridKey g b p = cuKey (cuCellOf g b p) (cuNc g) b := rfl

theorem cuCellOf_range {D : ℕ} (g : Grid D K) (b : ℕ) (p : Fin D → K) (d : Fin D) :
    0 ≤ cuCellOf g b p d ∧ cuCellOf g b p d < cuNc g d :=
  cuCell_range p _ _ (cuNc_pos g) _ d

theorem cuKey_nonneg {D : ℕ} (nc cell : Fin D → ℤ) (b : ℤ) (hb : 0 ≤ b)
    (h : ∀ d, 0 ≤ cell d ∧ cell d < nc d) : 0 ≤ cuKey cell nc b := by
  obtain ⟨h1, h2⟩ := tailKey_range nc cell h
  rw [cuKey_eq]
  have := mul_nonneg (by omega : (0 : ℤ) ≤ mulZ nc 0) hb
  omega

theorem cuSortedKeys_lt {D : ℕ} (g : Grid D K) {i : ℕ} (h : i < g.c.n) :
    cuSortedKeys g i =
      cuGridKey g (g.c.batch (cuPerm g ⟨i, h⟩)) (g.c.pts (cuPerm g ⟨i, h⟩)) := dif_pos h

/-- The sorted keys as natural numbers. -/
def cuKeyNat {D : ℕ} (g : Grid D K) (i : Fin g.c.n) : ℕ := (cuSortedKeys g i.val).toNat

theorem cuSortedKeys_nonneg {D : ℕ} (g : Grid D K) {i : ℕ} (h : i < g.c.n) : 0 ≤ cuSortedKeys g i := by
  rw [cuSortedKeys_lt g h, cuGridKey_eq]
  exact cuKey_nonneg _ _ _ (by positivity) (cuCellOf_range g _ _)

theorem keyArr_cuKeyNat {D : ℕ} (g : Grid D K) : keyArr (cuKeyNat g) = cuSortedKeys g := by
  funext i
  by_cases h : i < g.c.n
  · rw [keyArr_lt _ h, cuKeyNat, Int.toNat_of_nonneg (cuSortedKeys_nonneg g h)]
  · rw [keyArr, dif_neg h, cuSortedKeys, dif_neg h]

theorem cuSortedKeys_antitone {D : ℕ} (g : Grid D K) (i j : ℕ) (hij : i ≤ j) (hj : j < g.c.n) :
    cuSortedKeys g j ≤ cuSortedKeys g i := by
  rw [cuSortedKeys_lt g hj, cuSortedKeys_lt g (lt_of_le_of_lt hij hj)]
  exact argsortDesc_le (fun i => cuGridKey g (g.c.batch i) (g.c.pts i))
    (k := ⟨i, lt_of_le_of_lt hij hj⟩) (l := ⟨j, hj⟩) hij

/-- A table built by the CUDA kernel for the grid `g`, by any number of threads
in any schedule (see C54). -/
def BuiltTable (g : Grid (k + 2) K) (tab : ℤ → ℕ × ℕ) : Prop :=
  ∃ (T : ℕ) (tr : List ((ℤ × Comp) × ℕ)), 0 < T ∧
    Interleave (buildDsThreads (cuNc g) (cuSortedKeys g) g.c.n T) tr ∧
    tab = fun s => buildDsResult tr s

theorem BuiltTable.spec {g : Grid (k + 2) K} {tab : ℤ → ℕ × ℕ} (h : BuiltTable g tab) :
    TabSpec (cuNc g) g.c.n (cuSortedKeys g) tab := by
  obtain ⟨T, tr, hT, htr, rfl⟩ := h
  rw [← keyArr_cuKeyNat] at htr ⊢
  refine tabSpec_of g.numCells (cuKeyNat g) _ ?_
  refine C54_table g.numCells (cuKeyNat g) ?_ T hT tr htr
  intro i j hij
  exact Int.toNat_le_toNat (cuSortedKeys_antitone g i.val j.val hij j.isLt)

/-- The examined positions of one offset, described by cells. -/
theorem cuRange_spec (g : Grid (k + 2) K) (tab : ℤ → ℕ × ℕ) (ht : BuiltTable g tab) (b : ℕ)
    (p : Fin (k + 2) → K) (off : Fin (k + 2) → ℤ) (ho : off ∈ cuOffsets (k + 2) 1) (fuel : ℕ)
    (hf : Nat.clog 2 g.c.n + 1 ≤ fuel) :
    ∃ r, cuRange fuel (cuNc g) (cuSortedKeys g) tab 1 (cuGridKey g b p) off = some r ∧
      r.2 ≤ g.c.n ∧ ∀ i : Fin g.c.n, ((r.1 ≤ i.val ∧ i.val < r.2) ↔
        (∀ d, 0 ≤ cuCellOf g b p d + off d ∧ cuCellOf g b p d + off d < cuNc g d) ∧
        g.c.batch (cuPerm g i) = b ∧
        cuCellOf g (g.c.batch (cuPerm g i)) (g.c.pts (cuPerm g i)) 0 = cuCellOf g b p 0 + off 0 ∧
        cuCellOf g (g.c.batch (cuPerm g i)) (g.c.pts (cuPerm g i)) 1 = cuCellOf g b p 1 + off 1 ∧
        (k ≠ 0 → |cuSortedKeys g i.val - cuKey (fun d => cuCellOf g b p d + off d) (cuNc g) b| ≤ 1)) := by
  have hdec := cuDecode_cuKey (cuNc g) (b := b) (by positivity) (cuCellOf_range g b p)
  have hkey : 0 ≤ cuGridKey g b p := by
    rw [cuGridKey_eq]
    exact cuKey_nonneg _ _ _ (by positivity) (cuCellOf_range g b p)
  obtain ⟨ho1, ho2⟩ := (mem_cuOffsets k off).mp ho
  rw [← cuGridKey_eq] at hdec
  -- the 2D index in terms of batch and cell
  have hds : ∀ i : Fin g.c.n, (∀ d, 0 ≤ cuCellOf g b p d + off d ∧
      cuCellOf g b p d + off d < cuNc g d) →
      (cuDsFromKey (cuSortedKeys g i.val) (cuNc g) =
        cuDsFromCell (b : ℤ) (fun d => cuCellOf g b p d + off d) (cuNc g) ↔
      g.c.batch (cuPerm g i) = b ∧
        cuCellOf g (g.c.batch (cuPerm g i)) (g.c.pts (cuPerm g i)) 0 = cuCellOf g b p 0 + off 0 ∧
        cuCellOf g (g.c.batch (cuPerm g i)) (g.c.pts (cuPerm g i)) 1 = cuCellOf g b p 1 + off 1) := by
    intro i hin
    have hr := cuCellOf_range g (g.c.batch (cuPerm g i)) (g.c.pts (cuPerm g i))
    obtain ⟨q1, q2⟩ := C53_ds_index (cuNc g) (g.c.batch (cuPerm g i)) _ (by positivity) hr
    obtain ⟨_, q4⟩ := C53_ds_index (cuNc g) b _ (by positivity) hin
    rw [cuSortedKeys_lt g i.isLt, cuGridKey_eq, q1, q2, q4]
    constructor
    · intro he
      obtain ⟨e1, e2⟩ := mulAddInjZ (hr 1).1 (hr 1).2 (hin 1).1 (hin 1).2 he
      obtain ⟨e3, e4⟩ := mulAddInjZ (hr 0).1 (hr 0).2 (hin 0).1 (hin 0).2 e1
      exact ⟨Int.ofNat_inj.mp e3, e4, e2⟩
    · rintro ⟨e1, e2, e3⟩
      rw [e2, e3, e1]
  unfold cuRange
  by_cases hk : k = 0
  · subst hk
    rw [if_neg (by norm_num)]
    obtain ⟨h1, h2⟩ := cuFindRange2_spec (cuNc g) (cuNc_pos g) g.c.n (cuSortedKeys g) tab ht.spec
      (cuGridKey g b p) hkey off
    refine ⟨_, rfl, h1, fun i => ?_⟩
    rw [h2 i.val i.isLt, hdec]
    dsimp only
    constructor
    · rintro ⟨hin, he⟩
      exact ⟨hin, ((hds i hin).mp he).1, ((hds i hin).mp he).2.1, ((hds i hin).mp he).2.2,
        fun h => absurd rfl h⟩
    · rintro ⟨hin, e1, e2, e3, _⟩
      exact ⟨hin, (hds i hin).mpr ⟨e1, e2, e3⟩⟩
  · rw [if_pos (by omega)]
    obtain ⟨r, h1, h2, h3⟩ := cuFindRange_spec (cuNc g) (cuNc_pos g) g.c.n (cuSortedKeys g)
      (fun i hi => cuSortedKeys_nonneg g hi) (cuSortedKeys_antitone g) tab ht.spec
      (cuGridKey g b p) hkey off (ho2 hk) fuel hf
    refine ⟨r, h1, h2, fun i => ?_⟩
    rw [h3 i.val i.isLt, hdec]
    dsimp only
    constructor
    · rintro ⟨hin, he, ha⟩
      exact ⟨hin, ((hds i hin).mp he).1, ((hds i hin).mp he).2.1, ((hds i hin).mp he).2.2,
        fun _ => ha⟩
    · rintro ⟨hin, e1, e2, e3, ha⟩
      exact ⟨hin, (hds i hin).mpr ⟨e1, e2, e3⟩, ha hk⟩

/-- The list of neighbours exists and is described by ranges. -/
theorem cuNeighborsOf_eq (g : Grid (k + 2) K) (tab : ℤ → ℕ × ℕ) (ht : BuiltTable g tab) (b : ℕ)
    (p inv : Fin (k + 2) → K) (fuel : ℕ) (hf : Nat.clog 2 g.c.n + 1 ≤ fuel) :
    ∃ rg : (Fin (k + 2) → ℤ) → ℕ × ℕ,
      (∀ off ∈ cuOffsets (k + 2) 1,
        (rg off).2 ≤ g.c.n ∧ ∀ i : Fin g.c.n, (((rg off).1 ≤ i.val ∧ i.val < (rg off).2) ↔
        (∀ d, 0 ≤ cuCellOf g b p d + off d ∧ cuCellOf g b p d + off d < cuNc g d) ∧
        g.c.batch (cuPerm g i) = b ∧
        cuCellOf g (g.c.batch (cuPerm g i)) (g.c.pts (cuPerm g i)) 0 = cuCellOf g b p 0 + off 0 ∧
        cuCellOf g (g.c.batch (cuPerm g i)) (g.c.pts (cuPerm g i)) 1 = cuCellOf g b p 1 + off 1 ∧
        (k ≠ 0 → |cuSortedKeys g i.val -
          cuKey (fun d => cuCellOf g b p d + off d) (cuNc g) b| ≤ 1))) ∧
      cuNeighborsOf fuel g tab b p inv = some (((cuOffsets (k + 2) 1).flatMap
        (fun off => List.range' (rg off).1 ((rg off).2 - (rg off).1))).filter (fun i =>
          if h : i < g.c.n then decide (cuTest p (g.c.pts (cuPerm g ⟨i, h⟩)) inv) else false)) := by
  let rg : (Fin (k + 2) → ℤ) → ℕ × ℕ := fun off =>
    (cuRange fuel (cuNc g) (cuSortedKeys g) tab 1 (cuGridKey g b p) off).getD (0, 0)
  refine ⟨rg, ?_, ?_⟩
  · intro off ho
    obtain ⟨r, h1, h2, h3⟩ := cuRange_spec g tab ht b p off ho fuel hf
    have e : rg off = r := by simp only [rg, h1, Option.getD_some]
    rw [e]
    exact ⟨h2, h3⟩
  · unfold cuNeighborsOf
    rw [offsetBlocks_flatten, cuCandidates_eq fuel g tab b p rg]
    intro off ho
    obtain ⟨r, h1, h2, h3⟩ := cuRange_spec g tab ht b p off ho fuel hf
    simp only [rg, h1, Option.getD_some]

theorem mem_range'_iff (a b i : ℕ) : i ∈ List.range' a (b - a) ↔ a ≤ i ∧ i < b := by
  rw [List.mem_range'_1]
  omega

/-- **C56, soundness.** Whatever the radii: the search stops, and every reported
position belongs to the centre's batch element and lies at scaled distance below
1 from the centre. -/
theorem C56_sound (g : Grid (k + 2) K) (tab : ℤ → ℕ × ℕ) (ht : BuiltTable g tab) (b : ℕ)
    (p rad : Fin (k + 2) → K) (fuel : ℕ) (hf : Nat.clog 2 g.c.n + 1 ≤ fuel) :
    ∃ l, cuNeighborsOf fuel g tab b p (fun d => (rad d)⁻¹) = some l ∧
      ∀ i ∈ l, ∃ h : i < g.c.n, g.c.batch (cuPerm g ⟨i, h⟩) = b ∧
        ∑ d, ((p d - g.c.pts (cuPerm g ⟨i, h⟩) d) / rad d) ^ 2 < 1 := by
  obtain ⟨rg, h1, h2⟩ := cuNeighborsOf_eq g tab ht b p (fun d => (rad d)⁻¹) fuel hf
  refine ⟨_, h2, ?_⟩
  intro i hi
  rw [List.mem_filter, List.mem_flatMap] at hi
  obtain ⟨⟨off, ho, hm⟩, htest⟩ := hi
  rw [mem_range'_iff] at hm
  have hn : i < g.c.n := lt_of_lt_of_le hm.2 (h1 off ho).1
  refine ⟨hn, ((h1 off ho).2 ⟨i, hn⟩ |>.mp hm).2.1, ?_⟩
  rw [dif_pos hn, decide_eq_true_eq] at htest
  have := htest.2
  rw [one_mul] at this
  refine lt_of_le_of_lt (le_of_eq ?_) this
  exact Finset.sum_congr rfl (fun d _ => by rw [div_eq_mul_inv, sq])

theorem floor_near {x y : K} (h : x < y + 1) : ⌊x⌋ ≤ ⌊y⌋ + 1 := by
  have h1 : (⌊x⌋ : K) ≤ x := Int.floor_le x
  have h2 : y < ⌊y⌋ + 1 := Int.lt_floor_add_one y
  have h3 : (⌊x⌋ : K) < ((⌊y⌋ + 1 + 1 : ℤ) : K) := by push_cast; linarith
  have := Int.cast_lt.mp h3
  omega

/-- Close points of one batch element lie in adjacent cells. -/
theorem cells_adjacent {D : ℕ} (g : Grid D K) (hcs : ∀ d, 0 < g.cs d) (p : Fin D → K)
    (i : Fin g.c.n) (d : Fin D) (h : |p d - g.c.pts i d| < g.cs d) :
    -1 ≤ cuCellOf g (g.c.batch i) (g.c.pts i) d - cuCellOf g (g.c.batch i) p d ∧
    cuCellOf g (g.c.batch i) (g.c.pts i) d - cuCellOf g (g.c.batch i) p d ≤ 1 := by
  obtain ⟨j, hj, hmin, hjle⟩ := aabbMin_own g.eps g.c i d
  have hn := cuNc_pos g d
  rw [abs_lt] at h
  have hc := hcs d
  have e1 : p d * (g.cs d)⁻¹ < g.c.pts i d * (g.cs d)⁻¹ + 1 := by
    rw [← div_eq_mul_inv, ← div_eq_mul_inv, div_lt_iff₀ hc, add_mul, div_mul_cancel₀ _ hc.ne']
    linarith
  have e2 : g.c.pts i d * (g.cs d)⁻¹ < p d * (g.cs d)⁻¹ + 1 := by
    rw [← div_eq_mul_inv, ← div_eq_mul_inv, div_lt_iff₀ hc, add_mul, div_mul_cancel₀ _ hc.ne']
    linarith
  unfold cuCellOf cuCell cuSMin
  rw [hmin]
  dsimp only
  have f1 := floor_near (x := p d * (g.cs d)⁻¹ - (g.c.pts j d - g.eps) / g.cs d)
    (y := g.c.pts i d * (g.cs d)⁻¹ - (g.c.pts j d - g.eps) / g.cs d) (by linarith)
  have f2 := floor_near (x := g.c.pts i d * (g.cs d)⁻¹ - (g.c.pts j d - g.eps) / g.cs d)
    (y := p d * (g.cs d)⁻¹ - (g.c.pts j d - g.eps) / g.cs d) (by linarith)
  omega

theorem abs_lt_of_scaled {D : ℕ} (v rad : Fin D → K) (hr : ∀ d, 0 < rad d)
    (h : ∑ d, (v d / rad d) ^ 2 < 1) (d : Fin D) : |v d| < rad d := by
  have h1 : (v d / rad d) ^ 2 ≤ ∑ d, (v d / rad d) ^ 2 :=
    Finset.single_le_sum (f := fun d => (v d / rad d) ^ 2) (fun _ _ => sq_nonneg _) (Finset.mem_univ d)
  have h2 : (v d / rad d) ^ 2 < 1 := lt_of_le_of_lt h1 h
  have h3 : |v d / rad d| < 1 := by
    rw [← sq_lt_one_iff_abs_lt_one]; exact h2
  rw [abs_div, abs_of_pos (hr d), div_lt_one (hr d)] at h3
  exact h3

/-- Keys of cells that agree except in the last dimension. -/
theorem key_diff_last {D : ℕ} (nc c c' : Fin (D + 1) → ℤ) (b : ℤ)
    (h : ∀ d : Fin D, c d.castSucc = c' d.castSucc) :
    cuKey c nc b - cuKey c' nc b = c (Fin.last _) - c' (Fin.last _) := by
  rw [cuKey_eq, cuKey_eq]
  unfold tailKey
  rw [Fin.sum_univ_castSucc, Fin.sum_univ_castSucc]
  simp only [h]
  have e : mulZ nc ((Fin.last D).val + 1) = 1 := mulZ_top nc
  simp only [e, Nat.zero_le, if_true]
  ring

/-- **C56, completeness.** With positive radii not larger than the cell sizes,
every point of the centre's batch element at scaled distance below 1 is
reported, wherever the centre lies and for any margin of the boxes. -/
theorem C56_complete (g : Grid (k + 2) K) (tab : ℤ → ℕ × ℕ) (ht : BuiltTable g tab) (b : ℕ)
    (p rad : Fin (k + 2) → K) (hr : ∀ d, 0 < rad d) (hle : ∀ d, rad d ≤ g.cs d) (fuel : ℕ)
    (hf : Nat.clog 2 g.c.n + 1 ≤ fuel) :
    ∃ l, cuNeighborsOf fuel g tab b p (fun d => (rad d)⁻¹) = some l ∧
      ∀ i : Fin g.c.n, g.c.batch (cuPerm g i) = b →
        ∑ d, ((p d - g.c.pts (cuPerm g i) d) / rad d) ^ 2 < 1 → i.val ∈ l := by
  obtain ⟨rg, h1, h2⟩ := cuNeighborsOf_eq g tab ht b p (fun d => (rad d)⁻¹) fuel hf
  refine ⟨_, h2, ?_⟩
  intro i hb hd
  have hcs : ∀ d, 0 < g.cs d := fun d => lt_of_lt_of_le (hr d) (hle d)
  have hadj : ∀ d, -1 ≤ cuCellOf g b (g.c.pts (cuPerm g i)) d - cuCellOf g b p d ∧
      cuCellOf g b (g.c.pts (cuPerm g i)) d - cuCellOf g b p d ≤ 1 := by
    intro d
    have := cells_adjacent g hcs p (cuPerm g i) d (lt_of_lt_of_le
      (abs_lt_of_scaled (fun d => p d - g.c.pts (cuPerm g i) d) rad hr hd d) (hle d))
    rw [hb] at this
    exact this
  rw [List.mem_filter, List.mem_flatMap]
  constructor
  · -- the offset of the point's cell, last entry cleared for D > 2
    let off : Fin (k + 2) → ℤ := fun d =>
      if k ≠ 0 ∧ d = Fin.last _ then 0 else cuCellOf g b (g.c.pts (cuPerm g i)) d - cuCellOf g b p d
    have ho : off ∈ cuOffsets (k + 2) 1 := by
      rw [mem_cuOffsets]
      constructor
      · intro d
        simp only [off]
        split
        · omega
        · exact hadj d
      · intro hk
        exact if_pos ⟨hk, rfl⟩
    have hsame : ∀ d, ¬ (k ≠ 0 ∧ d = Fin.last _) →
        cuCellOf g b p d + off d = cuCellOf g b (g.c.pts (cuPerm g i)) d := by
      intro d h
      simp only [off]
      rw [if_neg h]
      ring
    refine ⟨off, ho, ?_⟩
    rw [mem_range'_iff, (h1 off ho).2 i]
    have hcr := cuCellOf_range g b (g.c.pts (cuPerm g i))
    have hpr := cuCellOf_range g b p
    refine ⟨?_, hb, ?_, ?_, ?_⟩
    · intro d
      by_cases h : k ≠ 0 ∧ d = Fin.last _
      · have : off d = 0 := if_pos h
        rw [this, add_zero]
        exact hpr d
      · rw [hsame d h]
        exact hcr d
    · rw [hb, hsame 0 (by
        rintro ⟨_, h⟩
        have := congrArg Fin.val h
        rw [Fin.val_last, Fin.val_zero] at this
        omega)]
    · rw [hb, hsame 1 (by
        rintro ⟨h0, h⟩
        have := congrArg Fin.val h
        rw [Fin.val_last, Fin.val_one] at this
        omega)]
    · intro hk
      rw [cuSortedKeys_lt g i.isLt, cuGridKey_eq, hb, key_diff_last]
      · have h0 : off (Fin.last _) = 0 := if_pos ⟨hk, rfl⟩
        rw [h0, add_zero, abs_le]
        exact hadj _
      · intro d
        rw [hsame d.castSucc (by
          rintro ⟨_, h⟩
          exact absurd h (Fin.castSucc_lt_last d).ne)]
  · rw [dif_pos i.isLt, decide_eq_true_eq]
    refine ⟨zero_lt_one, ?_⟩
    rw [one_mul]
    refine lt_of_le_of_lt (le_of_eq ?_) hd
    exact Finset.sum_congr rfl (fun d _ => by rw [div_eq_mul_inv, sq])

/-- The products of the later cell counts are multiples of the last one. -/
theorem last_dvd_mulZ {D : ℕ} (nc : Fin (D + 1) → ℤ) (d : Fin D) :
    nc (Fin.last _) ∣ mulZ nc (d.val + 1) := by
  unfold mulZ
  rw [Fin.prod_univ_castSucc]
  have : d.val + 1 ≤ (Fin.last D).val := by rw [Fin.val_last]; exact d.isLt
  rw [if_pos this]
  exact Dvd.intro_left _ rfl

/-- **C56, no duplicates (partial).** No position is reported twice if the cloud
has two or three dimensions, or if the grid has at least three cells along the
last dimension.  Missing: see `C56_no_duplicates_false`. -/
theorem C56_no_duplicates_partial (g : Grid (k + 2) K) (tab : ℤ → ℕ × ℕ) (ht : BuiltTable g tab)
    (b : ℕ) (p rad : Fin (k + 2) → K) (hdim : k ≤ 1 ∨ 3 ≤ g.numCells (Fin.last _)) (fuel : ℕ)
    (hf : Nat.clog 2 g.c.n + 1 ≤ fuel) :
    ∃ l, cuNeighborsOf fuel g tab b p (fun d => (rad d)⁻¹) = some l ∧ l.Nodup := by
  obtain ⟨rg, h1, h2⟩ := cuNeighborsOf_eq g tab ht b p (fun d => (rad d)⁻¹) fuel hf
  refine ⟨_, h2, ?_⟩
  apply List.Nodup.filter
  rw [List.nodup_flatMap]
  constructor
  · intro off _
    exact List.nodup_range' 
  · have hnd := nodup_cuOffsets k
    rw [List.Nodup] at hnd
    refine hnd.imp_of_mem ?_
    intro off off' ho ho' hne
    show List.Disjoint _ _
    rw [List.disjoint_left]
    intro i hi hi'
    rw [mem_range'_iff] at hi hi'
    have hn : i < g.c.n := lt_of_lt_of_le hi.2 (h1 off ho).1
    obtain ⟨u1, u2, u3, u4, u5⟩ := ((h1 off ho).2 ⟨i, hn⟩).mp hi
    obtain ⟨v1, v2, v3, v4, v5⟩ := ((h1 off' ho').2 ⟨i, hn⟩).mp hi'
    obtain ⟨o1, o2⟩ := (mem_cuOffsets k off).mp ho
    obtain ⟨o1', o2'⟩ := (mem_cuOffsets k off').mp ho'
    apply hne
    have e0 : off 0 = off' 0 := by omega
    have e1 : off 1 = off' 1 := by omega
    by_cases hk : k ≤ 1
    · funext d
      obtain ⟨d, hd⟩ := d
      rcases (by omega : d = 0 ∨ d = 1 ∨ d = 2) with rfl | rfl | rfl
      · exact e0
      · exact e1
      · have hk1 : k ≠ 0 := by omega
        have el : (⟨2, hd⟩ : Fin (k + 2)) = Fin.last _ := Fin.ext (by rw [Fin.val_last]; show 2 = k + 1; omega)
        rw [el, o2 hk1, o2' hk1]
    · have hk0 : k ≠ 0 := by omega
      have h3 : 3 ≤ g.numCells (Fin.last _) := hdim.resolve_left hk
      have h3' : (3 : ℤ) ≤ cuNc g (Fin.last _) := by unfold cuNc; exact_mod_cast h3
      have a1 := u5 hk0
      have a2 := v5 hk0
      -- the two shifted keys differ by a multiple of the last cell count
      have hdvd : cuNc g (Fin.last _) ∣ cuKey (fun d => cuCellOf g b p d + off d) (cuNc g) b -
          cuKey (fun d => cuCellOf g b p d + off' d) (cuNc g) b := by
        rw [cuKey_eq, cuKey_eq]
        unfold tailKey
        rw [Fin.sum_univ_castSucc, Fin.sum_univ_castSucc (f := fun d : Fin (k + 1 + 1) =>
          if 0 ≤ d.val then (cuCellOf g b p d + off' d) * mulZ (cuNc g) (d.val + 1) else 0)]
        simp only [Nat.zero_le, if_true, o2 hk0, o2' hk0]
        have : ∀ (x y z w : ℤ), x + z + w - (y + z + w) = x - y := fun x y z w => by ring
        rw [this, ← Finset.sum_sub_distrib]
        apply Finset.dvd_sum
        intro d _
        rw [← sub_mul]
        exact Dvd.dvd.mul_left (last_dvd_mulZ (cuNc g) d) _
      have hzero : cuKey (fun d => cuCellOf g b p d + off d) (cuNc g) b -
          cuKey (fun d => cuCellOf g b p d + off' d) (cuNc g) b = 0 := by
        refine Int.eq_zero_of_abs_lt_dvd hdvd ?_
        rw [abs_le] at a1 a2
        rw [abs_lt]
        omega
      obtain ⟨_, hc⟩ := cuKey_inj (cuNc g) (b := b) (b' := b) (by positivity) (by positivity) u1 v1
        (by omega)
      funext d
      have := congrFun hc d
      omega

end

/-- Two points in four dimensions that differ only in the third coordinate. -/
abbrev exDup : Grid 4 ℚ :=
  ⟨⟨2, fun i d => if d = 2 then (3 / 2 : ℚ) * i.val else 0, fun _ => 0, 1⟩, fun _ => 1, 1 / 100⟩

theorem exDup_table : ∃ tab, BuiltTable exDup tab := by
  exact ⟨_, 1, _, one_pos, Interleave.exists_seq _, rfl⟩

abbrev exDupTab : ℤ → ℕ × ℕ :=
  fun s => buildDsResult (buildDsThreads (cuNc exDup) (cuSortedKeys exDup) exDup.c.n 1).flatten s

/-- **C56 fails in four and more dimensions**: in a grid with one cell along the
last dimension (the cell sizes equal the radii), the first point is reported twice
as its own neighbour, because the keys next to the centre's key belong to cells
adjacent in the third dimension, which another offset also examines. -/
theorem C56_no_duplicates_false : ¬ ∀ (g : Grid 4 ℚ) (tab : ℤ → ℕ × ℕ), g.c.Valid → BuiltTable g tab →
    (∀ d, 0 < g.cs d) → ∀ (b : ℕ) (p : Fin 4 → ℚ) (fuel : ℕ), Nat.clog 2 g.c.n + 1 ≤ fuel →
    ∀ l, cuNeighborsOf fuel g tab b p (fun d => (g.cs d)⁻¹) = some l → l.Nodup := by
  intro h
  have h1 := h exDup exDupTab (by intro i; decide +revert +kernel)
    ⟨1, _, one_pos, Interleave.exists_seq _, rfl⟩ (by decide +kernel) 0 (fun _ => 0) 5
    (by decide +kernel) [1, 1] (by decide +kernel)
  revert h1
  decide

/-- A three-dimensional case of C56 with all hypotheses satisfied: two points at
distance 1/2 in different cells, found from the first one. -/
abbrev exSearch : Grid 3 ℚ :=
  ⟨⟨3, fun i d => if d = 2 then (![3 / 4, 5 / 4, 2] : Fin 3 → ℚ) i else 0, fun _ => 0, 1⟩,
    fun _ => 1, 1 / 100⟩

abbrev exSearchTab : ℤ → ℕ × ℕ := fun s =>
  buildDsResult (buildDsThreads (cuNc exSearch) (cuSortedKeys exSearch) exSearch.c.n 2).flatten s

example : BuiltTable exSearch exSearchTab ∧
    cuNeighborsOf 5 exSearch exSearchTab 0 (exSearch.c.pts 0) (fun d => (1 : ℚ)⁻¹) = some [1, 2] :=
  ⟨⟨2, _, two_pos, Interleave.exists_seq _, rfl⟩, by decide +kernel⟩

end PC
