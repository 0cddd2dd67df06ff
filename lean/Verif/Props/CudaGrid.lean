import Verif.CudaGridLemmas

/-!
# Properties C53, C54, C81: CUDA keys and 2D access structure
-/

set_option linter.unusedVariables false
set_option linter.unusedSectionVars false

namespace PC

/-! ## C53 -/

/-- **C53.** The key loop of the CUDA code computes the documented formula
(custom_ops_wrapper.py:23-25): batch id times the number of all cells, plus each
cell index times the number of cells of the later dimensions. -/
theorem C53_encode {D : ℕ} (cell nc : Fin D → ℤ) (b : ℤ) :
    cuKey cell nc b = b * (∏ d, nc d) + ∑ d, cell d * ∏ d' ∈ Finset.univ.filter (d < ·), nc d' := by
  rw [cuKey_eq, add_comm, mul_comm]
  congr 1
  unfold tailKey
  refine Finset.sum_congr rfl (fun d _ => ?_)
  rw [if_pos (Nat.zero_le _), mulZ, Finset.prod_filter]
  congr 1

/-- **C53.** Decoding a key yields the batch id and the cell it was computed from. -/
theorem C53_decode {D : ℕ} (nc : Fin D → ℤ) (b : ℤ) (cell : Fin D → ℤ) (hb : 0 ≤ b)
    (h : ∀ d, 0 ≤ cell d ∧ cell d < nc d) : cuDecode (cuKey cell nc b) nc = (b, cell) :=
  cuDecode_cuKey nc hb h

/-- **C53.** Conversely every non-negative number is the key of the cell it
decodes to, and that cell lies inside the grid. -/
theorem C53_encode_decode {D : ℕ} (nc : Fin D → ℤ) (hn : ∀ d, 0 < nc d) (key : ℤ) (hk : 0 ≤ key) :
    0 ≤ (cuDecode key nc).1 ∧ (∀ d, 0 ≤ (cuDecode key nc).2 d ∧ (cuDecode key nc).2 d < nc d) ∧
    cuKey (cuDecode key nc).2 nc (cuDecode key nc).1 = key := cuDecode_spec nc hn key hk

/-- **C53.** The 2D cell number computed from a key and from the cell agree, and
are the row-major number of batch id and first two cell indices. -/
theorem C53_ds_index {k : ℕ} (nc : Fin (k + 2) → ℤ) (b : ℤ) (cell : Fin (k + 2) → ℤ) (hb : 0 ≤ b)
    (h : ∀ d, 0 ≤ cell d ∧ cell d < nc d) :
    cuDsFromKey (cuKey cell nc b) nc = cuDsFromCell b cell nc ∧
    cuDsFromCell b cell nc = (b * nc 0 + cell 0) * nc 1 + cell 1 := by
  have e : cuDsFromCell b cell nc = (b * nc 0 + cell 0) * nc 1 + cell 1 := by
    unfold cuDsFromCell
    rw [show ptAt nc 0 = nc 0 from ptAt_val nc 0, show ptAt nc 1 = nc 1 from ptAt_val nc 1,
      show ptAt cell 0 = cell 0 from ptAt_val cell 0, show ptAt cell 1 = cell 1 from ptAt_val cell 1]
    ring
  refine ⟨?_, e⟩
  rw [e]
  have hn : ∀ d, 0 ≤ nc d := fun d => (h d).1.trans (h d).2.le
  lift b to ℕ using hb
  obtain ⟨nc', rfl⟩ : ∃ nc' : Fin (k + 2) → ℕ, nc = fun i => (nc' i : ℤ) :=
    ⟨fun i => (nc i).toNat, funext fun i => (Int.toNat_of_nonneg (hn i)).symm⟩
  obtain ⟨c, rfl⟩ : ∃ c : Fin (k + 2) → ℕ, cell = fun i => (c i : ℤ) :=
    ⟨fun i => (cell i).toNat, funext fun i => (Int.toNat_of_nonneg (h i).1).symm⟩
  rw [cuKey_cast, cuDsFromKey_cast, cellKey_div nc' b c (fun d => Int.ofNat_lt.mp (h d.succ.succ).2)]
  push_cast
  ring

/-- A 4-dimensional case: cell (1, 2, 0, 3) of batch element 2 in a 2×3×1×5 grid. -/
example : cuKey (D := 4) ![1, 2, 0, 3] ![2, 3, 1, 5] 2 = 88 ∧
    cuDecode (D := 4) 88 ![2, 3, 1, 5] = (2, ![1, 2, 0, 3]) ∧
    cuDsFromKey (D := 4) 88 ![2, 3, 1, 5] = 17 := by
  refine ⟨by decide, ?_, by decide⟩
  refine Prod.ext (by decide) (funext fun d => ?_)
  decide +revert

/-! ## C54 -/

/-- A finite array as the kernels see it. -/
def keyArr {n : ℕ} (keys : Fin n → ℕ) (i : ℕ) : ℤ := if h : i < n then (keys ⟨i, h⟩ : ℤ) else 0

theorem keyArr_lt {n : ℕ} (keys : Fin n → ℕ) {i : ℕ} (h : i < n) :
    keyArr keys i = (keys ⟨i, h⟩ : ℤ) := dif_pos h

theorem buildDsBody_mem_x {D : ℕ} (nc : Fin D → ℤ) (keys : ℕ → ℤ) (N cur : ℕ) (s : ℤ) (v : ℕ) :
    ((s, Comp.x), v) ∈ buildDsBody nc keys N cur ↔
      v = cur ∧ 1 ≤ cur ∧ cuDsFromKey (keys cur) nc = s ∧ cuDsFromKey (keys (cur - 1)) nc ≠ s := by
  unfold buildDsBody
  dsimp only
  rw [List.mem_append]
  have h2 : ¬ ((s, Comp.x), v) ∈ (if cur + 1 = N then [((cuDsFromKey (keys cur) nc, Comp.y), N)]
   else if cuDsFromKey (keys cur) nc ≠ cuDsFromKey (keys (cur + 1)) nc then
     [((cuDsFromKey (keys cur) nc, Comp.y), cur + 1)] else []) := by
    split
    · simp
    · split <;> simp
  constructor
  · rintro (h | h)
    · split at h
      · rename_i hc
        simp only [List.mem_singleton, Prod.mk.injEq, and_true] at h
        obtain ⟨rfl, rfl⟩ := h
        exact ⟨rfl, hc.1, rfl, fun e => hc.2 e.symm⟩
      · simp at h
    · exact absurd h h2
  · rintro ⟨rfl, h1, rfl, h3⟩
    left
    rw [if_pos ⟨h1, fun e => h3 e.symm⟩]
    simp

theorem buildDsBody_mem_y {D : ℕ} (nc : Fin D → ℤ) (keys : ℕ → ℤ) (N cur : ℕ) (s : ℤ) (v : ℕ) :
    ((s, Comp.y), v) ∈ buildDsBody nc keys N cur ↔
      v = cur + 1 ∧ cuDsFromKey (keys cur) nc = s ∧
        (cur + 1 = N ∨ cuDsFromKey (keys (cur + 1)) nc ≠ s) := by
  unfold buildDsBody
  dsimp only
  rw [List.mem_append]
  have h2 : ¬ ((s, Comp.y), v) ∈ (if 1 ≤ cur ∧ cuDsFromKey (keys cur) nc ≠
      cuDsFromKey (keys (cur - 1)) nc then [((cuDsFromKey (keys cur) nc, Comp.x), cur)] else []) := by
    split <;> simp
  constructor
  · rintro (h | h)
    · exact absurd h h2
    · split at h
      · rename_i hc
        simp only [List.mem_singleton, Prod.mk.injEq, and_true] at h
        obtain ⟨rfl, rfl⟩ := h
        exact ⟨hc.symm, rfl, Or.inl hc⟩
      · split at h
        · rename_i hc hd
          simp only [List.mem_singleton, Prod.mk.injEq, and_true] at h
          obtain ⟨rfl, rfl⟩ := h
          exact ⟨rfl, rfl, Or.inr fun e => hd e.symm⟩
        · simp at h
  · rintro ⟨rfl, rfl, h3⟩
    right
    by_cases hN : cur + 1 = N
    · rw [if_pos hN]; simp [hN]
    · rw [if_neg hN, if_pos (fun e => (h3.resolve_left hN) e.symm)]
      simp

section
variable {k n : ℕ}

/-- What the table has to contain, independently of any implementation: entry
`s` is the range of positions of the keys whose 2D cell number is `s`, and `(0, 0)`
if there is none. -/
def IsDsTable (dsIdx : Fin n → ℕ) (tab : ℕ → ℕ × ℕ) : Prop :=
  ∀ s, (∀ i : Fin n, ((tab s).1 ≤ i.val ∧ i.val < (tab s).2) ↔ dsIdx i = s) ∧
    ((∀ i, dsIdx i ≠ s) → tab s = (0, 0)) ∧ (tab s).1 ≤ (tab s).2 ∧ (tab s).2 ≤ n

theorem buildDs_entry (nc : Fin (k + 2) → ℕ) (keys : Fin n → ℕ)
    (hs : ∀ i j, i ≤ j → keys j ≤ keys i) (tr : List ((ℤ × Comp) × ℕ))
    (hp : tr.Perm ((List.range n).flatMap (buildDsBody (fun d => (nc d : ℤ)) (keyArr keys) n)))
    (s : ℕ) :
    buildDsResult tr s = dsEntry (fun i => keys i / cellMultiplier nc 2) s := by
  have hf : ∀ i j : Fin n, i ≤ j → keys j / cellMultiplier nc 2 ≤ keys i / cellMultiplier nc 2 :=
    fun i j h => Nat.div_le_div_right (hs i j h)
  obtain ⟨h1, h2, h3, h4⟩ := dsEntry_spec (fun i => keys i / cellMultiplier nc 2) hf s
  have hds : ∀ (i : ℕ) (hi : i < n), cuDsFromKey (keyArr keys i) (fun d => (nc d : ℤ)) =
      ((keys ⟨i, hi⟩ / cellMultiplier nc 2 : ℕ) : ℤ) := by
    intro i hi
    rw [keyArr_lt keys hi, cuDsFromKey_cast]
  have hiff : ∀ i, i < n → (cuDsFromKey (keyArr keys i) (fun d => (nc d : ℤ)) = (s : ℤ) ↔
      (dsEntry (fun i => keys i / cellMultiplier nc 2) s).1 ≤ i ∧
      i < (dsEntry (fun i => keys i / cellMultiplier nc 2) s).2) := by
    intro i hi
    rw [hds i hi, Int.ofNat_inj]
    exact (h1 ⟨i, hi⟩).symm
  generalize hE : dsEntry (fun i => keys i / cellMultiplier nc 2) s = E at *
  obtain ⟨a, b⟩ := E
  simp only at hiff h3 h4
  have hx : ∀ v, ((((s : ℤ), Comp.x), v) ∈ tr ↔ v = a ∧ 1 ≤ a ∧ a < b) := by
    intro v
    rw [hp.mem_iff, List.mem_flatMap]
    constructor
    · rintro ⟨cur, hc, hm⟩
      rw [List.mem_range] at hc
      obtain ⟨rfl, h5, h6, h7⟩ := (buildDsBody_mem_x _ _ _ _ _ _).mp hm
      rw [hiff v hc] at h6
      rw [Ne, hiff (v - 1) (by omega)] at h7
      omega
    · rintro ⟨rfl, h5, h6⟩
      refine ⟨v, List.mem_range.mpr (by omega), (buildDsBody_mem_x _ _ _ _ _ _).mpr
        ⟨rfl, h5, (hiff v (by omega)).mpr (by omega), ?_⟩⟩
      rw [Ne, hiff (v - 1) (by omega)]
      omega
  have hy : ∀ v, ((((s : ℤ), Comp.y), v) ∈ tr ↔ v = b ∧ a < b) := by
    intro v
    rw [hp.mem_iff, List.mem_flatMap]
    constructor
    · rintro ⟨cur, hc, hm⟩
      rw [List.mem_range] at hc
      obtain ⟨rfl, h6, h7⟩ := (buildDsBody_mem_y _ _ _ _ _ _).mp hm
      rw [hiff cur hc] at h6
      rcases h7 with h7 | h7
      · omega
      · by_cases hl : cur + 1 < n
        · rw [Ne, hiff (cur + 1) hl] at h7
          omega
        · omega
    · rintro ⟨rfl, h6⟩
      refine ⟨v - 1, List.mem_range.mpr (by omega), (buildDsBody_mem_y _ _ _ _ _ _).mpr
        ⟨by omega, (hiff (v - 1) (by omega)).mpr (by omega), ?_⟩⟩
      have e : v - 1 + 1 = v := by omega
      rw [e]
      by_cases hv : v = n
      · exact Or.inl hv
      · right
        rw [Ne, hiff v (by omega)]
        omega
  by_cases hab : a < b
  · refine Prod.ext ?_ ?_
    · show runWrites (fun _ => 0) tr ((s : ℤ), Comp.x) = a
      by_cases ha : 1 ≤ a
      · refine runWrites_mem _ _ _ _ ((hx a).mpr ⟨rfl, ha, hab⟩) ?_
        rintro ⟨w1, w2⟩ hw rfl
        exact ((hx w2).mp hw).1
      · rw [runWrites_not_mem _ tr]
        · omega
        · rintro ⟨w1, w2⟩ hw rfl
          exact ha ((hx w2).mp hw).2.1
    · show runWrites (fun _ => 0) tr ((s : ℤ), Comp.y) = b
      refine runWrites_mem _ _ _ _ ((hy b).mpr ⟨rfl, hab⟩) ?_
      rintro ⟨w1, w2⟩ hw rfl
      exact ((hy w2).mp hw).1
  · have hE0 : (a, b) = (0, 0) := by
      apply h2
      intro i hi
      have := (h1 i).mpr hi
      simp only at this
      omega
    rw [hE0]
    refine Prod.ext ?_ ?_
    · refine runWrites_not_mem _ tr _ ?_
      rintro ⟨w1, w2⟩ hw rfl
      exact hab ((hx w2).mp hw).2.2
    · refine runWrites_not_mem _ tr _ ?_
      rintro ⟨w1, w2⟩ hw rfl
      exact hab ((hy w2).mp hw).2

/-- **C54.** For every array of keys sorted in descending order, every number
`T > 0` of threads and every interleaving `tr` of their writes, the table built
by the kernel contains for each 2D cell the range of its points. -/
theorem C54_table (nc : Fin (k + 2) → ℕ) (keys : Fin n → ℕ) (hs : ∀ i j, i ≤ j → keys j ≤ keys i)
    (T : ℕ) (hT : 0 < T) (tr : List ((ℤ × Comp) × ℕ))
    (h : Interleave (buildDsThreads (fun d => (nc d : ℤ)) (keyArr keys) n T) tr) :
    IsDsTable (fun i => keys i / ∏ d : Fin k, nc d.succ.succ) (fun s => buildDsResult tr s) := by
  have e : cellMultiplier nc 2 = ∏ d : Fin k, nc d.succ.succ := by
    refine ((cellMultiplier_succ nc 1).trans (cellMultiplier_succ (fun i => nc i.succ) 0)).trans ?_
    unfold cellMultiplier
    simp
  rw [← e]
  intro s
  have := buildDs_entry nc keys hs tr (strideThreads_perm hT _ h) s
  simp only [this]
  exact dsEntry_spec _ (fun i j h => Nat.div_le_div_right (hs i j h)) s

/-- **C54.** The table equals that of the TensorFlow version for every cell. -/
theorem C54_equals_tf (nc : Fin (k + 2) → ℕ) (keys : Fin n → ℕ)
    (hs : ∀ i j, i ≤ j → keys j ≤ keys i) (B : ℕ) (dev : Device) (tab : ℕ → ℕ → ℕ → ℕ × ℕ)
    (htf : buildGridDs dev keys nc B = .ok tab) (T : ℕ) (hT : 0 < T)
    (tr : List ((ℤ × Comp) × ℕ))
    (h : Interleave (buildDsThreads (fun d => (nc d : ℤ)) (keyArr keys) n T) tr) (b i j : ℕ) :
    buildDsResult tr (((b * nc 0 + i) * nc 1 + j : ℕ) : ℤ) = tab b i j := by
  rw [buildDs_entry nc keys hs tr (strideThreads_perm hT _ h)]
  unfold buildGridDs at htf
  dsimp only at htf
  split at htf
  · cases htf
  · injection htf with htf
    rw [← htf]

/-- **C54.** The result depends neither on the schedule nor on the launch geometry. -/
theorem C54_schedule_independent (nc : Fin (k + 2) → ℕ) (keys : Fin n → ℕ)
    (hs : ∀ i j, i ≤ j → keys j ≤ keys i) (T T' : ℕ) (hT : 0 < T) (hT' : 0 < T')
    (tr tr' : List ((ℤ × Comp) × ℕ))
    (h : Interleave (buildDsThreads (fun d => (nc d : ℤ)) (keyArr keys) n T) tr)
    (h' : Interleave (buildDsThreads (fun d => (nc d : ℤ)) (keyArr keys) n T') tr') (s : ℕ) :
    buildDsResult tr s = buildDsResult tr' s := by
  rw [buildDs_entry nc keys hs tr (strideThreads_perm hT _ h),
    buildDs_entry nc keys hs tr' (strideThreads_perm hT' _ h')]

/-- **C54.** No component of an entry is written twice, in particular not by two threads. -/
theorem C54_no_conflict (nc : Fin (k + 2) → ℕ) (keys : Fin n → ℕ)
    (hs : ∀ i j, i ≤ j → keys j ≤ keys i) (T : ℕ) (hT : 0 < T) (tr : List ((ℤ × Comp) × ℕ))
    (h : Interleave (buildDsThreads (fun d => (nc d : ℤ)) (keyArr keys) n T) tr) :
    (tr.map Prod.fst).Nodup := by
  have hp := strideThreads_perm hT _ h
  rw [(hp.map Prod.fst).nodup_iff, List.map_flatMap, List.nodup_flatMap]
  have hf : ∀ i j : Fin n, i ≤ j → keys j / cellMultiplier nc 2 ≤ keys i / cellMultiplier nc 2 :=
    fun i j h => Nat.div_le_div_right (hs i j h)
  have hds : ∀ (i : ℕ) (hi : i < n), cuDsFromKey (keyArr keys i) (fun d => (nc d : ℤ)) =
      ((keys ⟨i, hi⟩ / cellMultiplier nc 2 : ℕ) : ℤ) := by
    intro i hi
    rw [keyArr_lt keys hi, cuDsFromKey_cast]
  -- equal entries at two positions force all entries in between to be equal
  have hmid : ∀ (i j l : ℕ), i ≤ j → j ≤ l → l < n → ∀ s,
      cuDsFromKey (keyArr keys i) (fun d => (nc d : ℤ)) = s →
      cuDsFromKey (keyArr keys l) (fun d => (nc d : ℤ)) = s →
      cuDsFromKey (keyArr keys j) (fun d => (nc d : ℤ)) = s := by
    intro i j l hij hjl hl s h1 h2
    rw [hds i (by omega)] at h1
    rw [hds l hl] at h2
    rw [hds j (by omega)]
    have h3 := hf ⟨i, by omega⟩ ⟨j, by omega⟩ hij
    have h4 := hf ⟨j, by omega⟩ ⟨l, hl⟩ hjl
    omega
  constructor
  · intro cur hc
    unfold buildDsBody
    dsimp only
    rw [List.map_append]
    refine List.Nodup.append ?_ ?_ ?_
    · split <;> simp
    · split
      · simp
      · split <;> simp
    · rw [List.disjoint_left]
      intro a ha hb
      split at ha
      · split at hb
        · simp at ha hb; rw [ha] at hb; simp at hb
        · split at hb
          · simp at ha hb; rw [ha] at hb; simp at hb
          · simp at hb
      · simp at ha
  · refine List.pairwise_lt_range.imp_of_mem ?_
    intro i j hi hj hij
    rw [List.mem_range] at hi hj
    show List.Disjoint _ _
    rw [List.disjoint_left]
    rintro ⟨s, c⟩ ha hb
    obtain ⟨⟨⟨s1, c1⟩, v⟩, hv, e1⟩ := List.mem_map.mp ha
    obtain ⟨⟨⟨s2, c2⟩, w⟩, hw, e2⟩ := List.mem_map.mp hb
    simp only [Prod.mk.injEq] at e1 e2
    obtain ⟨rfl, rfl⟩ := e1
    obtain ⟨rfl, rfl⟩ := e2
    cases c2 with
    | x =>
      obtain ⟨_, _, h3, _⟩ := (buildDsBody_mem_x _ _ _ _ _ _).mp hv
      obtain ⟨_, h5, h6, h7⟩ := (buildDsBody_mem_x _ _ _ _ _ _).mp hw
      exact h7 (hmid i (j - 1) j (by omega) (by omega) hj _ h3 h6)
    | y =>
      obtain ⟨_, h3, h4⟩ := (buildDsBody_mem_y _ _ _ _ _ _).mp hv
      obtain ⟨_, h6, _⟩ := (buildDsBody_mem_y _ _ _ _ _ _).mp hw
      rcases h4 with h4 | h4
      · omega
      · exact h4 (hmid i (i + 1) j (by omega) (by omega) hj _ h3 h6)

/-- **C54.** All writes stay inside the output of `B · nc₀ · nc₁` entries if all
keys belong to the `B` batch elements. -/
theorem C54_in_bounds (nc : Fin (k + 2) → ℕ) (hn : ∀ d, 0 < nc d) (keys : Fin n → ℕ) (B : ℕ)
    (hk : ∀ i, keys i < B * ∏ d, nc d) (T : ℕ) (hT : 0 < T) (tr : List ((ℤ × Comp) × ℕ))
    (h : Interleave (buildDsThreads (fun d => (nc d : ℤ)) (keyArr keys) n T) tr) :
    ∀ w ∈ tr, 0 ≤ w.1.1 ∧ w.1.1 < (B * nc 0 * nc 1 : ℕ) := by
  rintro ⟨⟨s, c⟩, v⟩ hw
  rw [(strideThreads_perm hT _ h).mem_iff, List.mem_flatMap] at hw
  obtain ⟨cur, hc, hm⟩ := hw
  rw [List.mem_range] at hc
  have hs : cuDsFromKey (keyArr keys cur) (fun d => (nc d : ℤ)) = s := by
    cases c with
    | x => exact ((buildDsBody_mem_x _ _ _ _ _ _).mp hm).2.2.1
    | y => exact ((buildDsBody_mem_y _ _ _ _ _ _).mp hm).2.1
  rw [keyArr_lt keys hc, cuDsFromKey_cast] at hs
  rw [← hs]
  refine ⟨by positivity, ?_⟩
  rw [Int.ofNat_lt, Nat.div_lt_iff_lt_mul (cellMultiplier_pos nc hn 2)]
  have e0 : cellMultiplier nc 0 = nc 0 * (nc 1 * cellMultiplier nc 2) := by
    rw [cellMultiplier_zero]
    congr 1
    refine (cellMultiplier_succ nc 0).trans ?_
    rw [cellMultiplier_zero, ← cellMultiplier_succ nc 1]
    rfl
  have e1 : (∏ d, nc d) = cellMultiplier nc 0 := by simp [cellMultiplier]
  have := hk ⟨cur, hc⟩
  rw [e1, e0] at this
  calc keys ⟨cur, hc⟩ < _ := this
    _ = _ := by ring

end

/-- Five points in three of the four 2D cells of a 2×2×2 grid, two threads in an
alternating schedule: keys 7, 6, 4, 4, 1. -/
abbrev exKeys : Fin 5 → ℕ := ![7, 6, 4, 4, 1]

abbrev exTrace : List ((ℤ × Comp) × ℕ) :=
  [((3, .y), 2), ((2, .x), 2), ((2, .y), 4), ((0, .x), 4), ((0, .y), 5)]

example : Interleave (buildDsThreads (D := 3) ![2, 2, 2] (keyArr exKeys) 5 2) exTrace := by
  have e : buildDsThreads (D := 3) ![2, 2, 2] (keyArr exKeys) 5 2 =
      [[((2, .x), 2), ((0, .x), 4), ((0, .y), 5)], [((3, .y), 2), ((2, .y), 4)]] := by decide +kernel
  rw [e]
  refine .step 1 _ _ rfl (.step 0 _ _ rfl (.step 1 _ _ rfl (.step 0 _ _ rfl (.step 0 _ _ rfl
    (.done ?_)))))
  decide

example : (List.range 4).map (fun s => buildDsResult exTrace s) =
    [(4, 5), (0, 0), (2, 4), (0, 2)] := by decide +kernel

/-! ## C81 -/

section
variable {K : Type*} [Field K] [LinearOrder K] [IsStrictOrderedRing K] [FloorRing K] {D : ℕ}

/-- **C81.** For every valid cloud, positive cell sizes and margin `eps > 0`, the
CUDA code computes the same key for each point as the TensorFlow code. -/
theorem C81_same_keys (g : Grid D K) (hv : g.c.Valid) (hcs : ∀ d, 0 < g.cs d) (heps : 0 < g.eps)
    (i : Fin g.c.n) : cuGridKey g (g.c.batch i) (g.c.pts i) = (g.key i : ℤ) := by
  unfold cuGridKey cuPointKey Grid.key
  rw [← cuKey_cast]
  congr 1
  funext d
  obtain ⟨j, hj, hmin, hjle⟩ := aabbMin_own g.eps g.c i d
  obtain ⟨h1, h2⟩ := cell_eq_floor g hv hcs heps i d _ hmin
  unfold cuCell cuSMin
  rw [hmin]
  dsimp only
  rw [← div_eq_mul_inv, ← sub_div, ← h1]
  omega

/-- **C81.** In general (any margin, in particular when the margin is lost in
rounding), the CUDA cell is the TensorFlow cell moved into the grid. -/
theorem C81_cell (g : Grid D K) (i : Fin g.c.n) (d : Fin D) :
    cuCell (g.c.pts i) (cuSMin g (g.c.batch i) (g.c.pts i)) (fun d => (g.numCells d : ℤ))
      (fun d => (g.cs d)⁻¹) d = min (g.cell i d : ℤ) (g.numCells d - 1) := by
  obtain ⟨j, hj, hmin, hjle⟩ := aabbMin_own g.eps g.c i d
  have hp := numCells_pos g d
  unfold cuCell cuSMin Grid.cell Grid.clampCell
  rw [hmin]
  dsimp only
  rw [← div_eq_mul_inv, ← sub_div]
  omega

/-- **C81.** For every number of threads and every schedule the kernel writes
exactly the array of keys. -/
theorem C81_kernel (g : Grid D K) (T : ℕ) (hT : 0 < T) (tr : List (ℕ × ℤ))
    (h : Interleave (cuKeysThreads g T) tr) (m : ℕ → ℤ) (i : ℕ) :
    runWrites m tr i = if h : i < g.c.n then cuGridKey g (g.c.batch ⟨i, h⟩) (g.c.pts ⟨i, h⟩)
      else m i := by
  have hp := strideThreads_perm hT _ h
  have hmem : ∀ w, w ∈ tr ↔ ∃ hw : w.1 < g.c.n,
      w.2 = cuGridKey g (g.c.batch ⟨w.1, hw⟩) (g.c.pts ⟨w.1, hw⟩) := by
    rintro ⟨a, v⟩
    rw [hp.mem_iff, List.mem_flatMap]
    constructor
    · rintro ⟨cur, hc, hm⟩
      rw [List.mem_range] at hc
      unfold cuKeysBody at hm
      rw [dif_pos hc, List.mem_singleton, Prod.mk.injEq] at hm
      obtain ⟨rfl, rfl⟩ := hm
      exact ⟨hc, rfl⟩
    · rintro ⟨hw, hv⟩
      dsimp only at hw hv
      refine ⟨a, List.mem_range.mpr hw, ?_⟩
      unfold cuKeysBody
      rw [dif_pos hw, List.mem_singleton, hv]
  by_cases hi : i < g.c.n
  · rw [dif_pos hi]
    refine runWrites_mem _ _ _ _ ((hmem _).mpr ⟨hi, rfl⟩) ?_
    rintro ⟨a, v⟩ hw rfl
    exact ((hmem _).mp hw).2
  · rw [dif_neg hi]
    refine runWrites_not_mem _ _ _ ?_
    rintro ⟨a, v⟩ hw rfl
    exact hi ((hmem _).mp hw).1

end

/-- Two points, at 0 and 1, cells of size 1, margin lost in rounding. -/
abbrev exKeyGrid : Grid 1 ℚ := ⟨⟨2, fun i _ => i.val, fun _ => 0, 1⟩, fun _ => 1, 0⟩

/-- **C81 fails when the margin is lost**: the TensorFlow code places the largest
point in a cell outside the grid, the CUDA code in the last cell. -/
theorem C81_same_keys_false : ¬ ∀ (g : Grid 1 ℚ), g.c.Valid → (∀ d, 0 < g.cs d) → 0 ≤ g.eps →
    ∀ i, cuGridKey g (g.c.batch i) (g.c.pts i) = (g.key i : ℤ) := by
  intro h
  have h1 := h exKeyGrid (by intro i; decide +revert +kernel) (by decide +kernel) (by decide +kernel) 1
  revert h1
  decide +kernel

example : (⟨⟨2, fun i _ => i.val, fun _ => 0, 1⟩, fun _ => 1, 1/100⟩ : Grid 1 ℚ).c.Valid := by
  intro i; decide +revert +kernel

end PC
