import Verif.GridLemmas
import Mathlib.Analysis.SpecialFunctions.Pow.Real

/-!
# Properties C11–C15: bounding boxes, grid keys, grid order, access structure
-/

set_option linter.unusedVariables false
set_option linter.unusedSectionVars false

namespace PC

section
variable {K : Type*} [Field K] [LinearOrder K] [IsStrictOrderedRing K] [FloorRing K] {D : ℕ}

/-! ## C11 -/

/-- **C11.** The box of the batch element of any point `i` exists, contains
the point strictly, and each of its faces is exactly `eps` (the code's 1e-9)
away from some point of the same element. -/
theorem C11_box_contains_and_tight (eps : K) (heps : 0 < eps) (c : Cloud (Fin D → K))
    (i : Fin c.n) (d : Fin D) :
    ∃ lo hi, aabbMin eps c (c.batch i) d = some lo ∧ aabbMax eps c (c.batch i) d = some hi ∧
      lo < c.pts i d ∧ c.pts i d < hi ∧
      (∃ j, c.batch j = c.batch i ∧ c.pts j d - lo = eps) ∧
      (∃ j, c.batch j = c.batch i ∧ hi - c.pts j d = eps) := by
  obtain ⟨j, hj, hmin, hle⟩ := aabbMin_own eps c i d
  obtain ⟨j', hj', hmax, hle'⟩ := aabbMax_own eps c i d
  have h1 := hle i rfl
  have h2 := hle' i rfl
  exact ⟨_, _, hmin, hmax, by linarith, by linarith, ⟨j, hj, by ring⟩, ⟨j', hj', by ring⟩⟩

/-- C11 when `1e-9` is absorbed by rounding (`eps = 0`): containment is not strict. -/
theorem C11_box_contains_eps0 (c : Cloud (Fin D → K)) (i : Fin c.n) (d : Fin D) :
    ∃ lo hi, aabbMin 0 c (c.batch i) d = some lo ∧ aabbMax 0 c (c.batch i) d = some hi ∧
      lo ≤ c.pts i d ∧ c.pts i d ≤ hi := by
  obtain ⟨j, hj, hmin, hle⟩ := aabbMin_own 0 c i d
  obtain ⟨j', hj', hmax, hle'⟩ := aabbMax_own 0 c i d
  have h1 := hle i rfl
  have h2 := hle' i rfl
  exact ⟨_, _, hmin, hmax, by linarith, by linarith⟩

end

/-! ## C12 -/

/-- The norms `tf.linalg.norm(v, ord)` accepts in `get_diameter`
(pylib/pc/PointCloud.py:45-65). -/
inductive NormOrd
  | euclidean | one | two | inf | p (p : ℝ)

/-- `tf.linalg.norm(v, ord=ord, axis=-1)`. -/
noncomputable def tfNorm {D : ℕ} (o : NormOrd) (v : Fin D → ℝ) : ℝ :=
  match o with
  | .euclidean => Real.sqrt (∑ d, v d * v d)
  | .two => Real.sqrt (∑ d, v d * v d)
  | .one => ∑ d, |v d|
  | .inf => ⨆ d, |v d|
  | .p p => (∑ d, |v d| ^ p) ^ (1 / p)

/-- `get_diameter` at batch element `b` (pylib/pc/PointCloud.py:61); the
reshape to the batch shape (lines 62-65) is not modelled. `none`: empty element. -/
noncomputable def getDiameter {D : ℕ} (eps : ℝ) (c : Cloud (Fin D → ℝ)) (b : ℕ) (o : NormOrd) :
    Option ℝ :=
  if ∃ i, c.batch i = b then
    some (tfNorm o (fun d => (aabbMax eps c b d).getD 0 - (aabbMin eps c b d).getD 0))
  else none

/-- The norms are monotone in the absolute values. -/
theorem tfNorm_mono {D : ℕ} (o : NormOrd) (ho : ∀ p, o = .p p → 0 < p) (v w : Fin D → ℝ)
    (h : ∀ d, |v d| ≤ |w d|) : tfNorm o v ≤ tfNorm o w := by
  have hsq : ∑ d, v d * v d ≤ ∑ d, w d * w d := by
    apply Finset.sum_le_sum
    intro d _
    rw [← abs_mul_abs_self (v d), ← abs_mul_abs_self (w d)]
    exact mul_le_mul (h d) (h d) (abs_nonneg _) (abs_nonneg _)
  cases o with
  | euclidean => exact Real.sqrt_le_sqrt hsq
  | two => exact Real.sqrt_le_sqrt hsq
  | one => exact Finset.sum_le_sum (fun d _ => h d)
  | inf =>
    exact ciSup_mono (Set.finite_range _).bddAbove h
  | p p =>
    have hp := ho p rfl
    simp only [tfNorm]
    apply Real.rpow_le_rpow
    · exact Finset.sum_nonneg (fun d _ => Real.rpow_nonneg (abs_nonneg _) _)
    · exact Finset.sum_le_sum (fun d _ => Real.rpow_le_rpow (abs_nonneg _) (h d) hp.le)
    · positivity

/-- **C12.** In every supported norm the diameter of a batch element is at
least the distance of any two of its points. -/
theorem C12_diameter_dominates {D : ℕ} (eps : ℝ) (heps : 0 ≤ eps) (c : Cloud (Fin D → ℝ))
    (o : NormOrd) (ho : ∀ p, o = .p p → 0 < p) (i j : Fin c.n) (hij : c.batch i = c.batch j) :
    ∃ diam, getDiameter eps c (c.batch i) o = some diam ∧
      tfNorm o (fun d => c.pts i d - c.pts j d) ≤ diam := by
  refine ⟨_, if_pos ⟨i, rfl⟩, ?_⟩
  apply tfNorm_mono o ho
  intro d
  obtain ⟨a, _, hmin, hle⟩ := aabbMin_own eps c i d
  obtain ⟨a', _, hmax, hle'⟩ := aabbMax_own eps c i d
  rw [hmin, hmax]
  simp only [Option.getD_some]
  have h1 := hle i rfl
  have h2 := hle' i rfl
  have h3 := hle j hij.symm
  have h4 := hle' j hij.symm
  rw [abs_le]
  have : 0 ≤ c.pts a' d + eps - (c.pts a d - eps) := by linarith
  rw [abs_of_nonneg this]
  constructor <;> linarith

/-- C12 is attained up to `eps`: for a two-point cloud on a line the 1-norm
diameter is the distance plus `2 eps`. -/
example (eps : ℝ) (heps : 0 ≤ eps) :
    getDiameter eps (⟨2, ![fun _ => 0, fun _ => 3], ![0, 0], 1⟩ : Cloud (Fin 1 → ℝ)) 0 .one =
      some (3 + 2 * eps) := by
  have h1 : segMin (fun i : Fin 2 => (![fun _ => 0, fun _ => 3] : Fin 2 → Fin 1 → ℝ) i 0)
      (![0, 0] : Fin 2 → ℕ) 0 = some 0 := by
    rw [segMin_eq_some]
    refine ⟨⟨0, by simp, by simp⟩, ?_⟩
    intro i _
    rcases Fin.exists_fin_two.mp ⟨i, rfl⟩ with h | h <;> subst h <;> simp
  have h2 : segMax (fun i : Fin 2 => (![fun _ => 0, fun _ => 3] : Fin 2 → Fin 1 → ℝ) i 0)
      (![0, 0] : Fin 2 → ℕ) 0 = some 3 := by
    rw [segMax_eq_some]
    refine ⟨⟨1, by simp, by simp⟩, ?_⟩
    intro i _
    rcases Fin.exists_fin_two.mp ⟨i, rfl⟩ with h | h <;> subst h <;> simp
  have hm : aabbMin eps (⟨2, ![fun _ => 0, fun _ => 3], ![0, 0], 1⟩ : Cloud (Fin 1 → ℝ)) 0 0
      = some (0 - eps) := by unfold aabbMin; dsimp only; rw [h1]; rfl
  have hM : aabbMax eps (⟨2, ![fun _ => 0, fun _ => 3], ![0, 0], 1⟩ : Cloud (Fin 1 → ℝ)) 0 0
      = some (3 + eps) := by unfold aabbMax; dsimp only; rw [h2]; rfl
  unfold getDiameter
  rw [if_pos ⟨0, rfl⟩]
  simp only [tfNorm, Finset.univ_unique, Fin.default_eq_zero, Fin.isValue, Finset.sum_singleton,
    hm, hM, Option.getD_some, Option.some.injEq]
  rw [abs_of_nonneg (by linarith)]
  ring

section
variable {K : Type*} [Field K] [LinearOrder K] [IsStrictOrderedRing K] [FloorRing K] {D : ℕ}

/-! ## C13 -/

/-- Two points lie in the same cell of the regular grid with lower corner the
box of batch element `b`: the specification of C13, independent of keys,
clamping and cell counts. -/
def SameCell (eps : K) (c : Cloud (Fin D → K)) (cs : Fin D → K) (b : ℕ) (p q : Fin D → K) : Prop :=
  ∀ d lo, aabbMin eps c b d = some lo → ⌊(p d - lo) / cs d⌋ = ⌊(q d - lo) / cs d⌋

/-- **C13.** Two points have the same key exactly if they are in the same batch
element and in the same cell; and keys are below
`batch_size * number of cells`. -/
theorem C13_keys_identify (g : Grid D K) (hv : g.c.Valid) (hcs : ∀ d, 0 < g.cs d)
    (heps : 0 < g.eps) :
    (∀ i j, g.key i = g.key j ↔ g.c.batch i = g.c.batch j ∧
      SameCell g.eps g.c g.cs (g.c.batch i) (g.c.pts i) (g.c.pts j)) ∧
    ∀ i, g.key i < g.c.B * ∏ d, g.numCells d := by
  constructor
  · intro i j
    constructor
    · intro h
      obtain ⟨hb, hc⟩ := cellKey_inj g.numCells (cell_lt g hv hcs heps i) (cell_lt g hv hcs heps j) h
      refine ⟨hb, ?_⟩
      intro d lo hlo
      have h1 := (cell_eq_floor g hv hcs heps i d lo hlo).1
      have h2 := (cell_eq_floor g hv hcs heps j d lo (by rw [← hb]; exact hlo)).1
      rw [← h1, ← h2, hc]
    · rintro ⟨hb, hc⟩
      unfold Grid.key
      rw [hb]
      congr 1
      funext d
      obtain ⟨a, _, hmin, _⟩ := aabbMin_own g.eps g.c i d
      have h1 := (cell_eq_floor g hv hcs heps i d _ hmin).1
      have h2 := (cell_eq_floor g hv hcs heps j d _ (by rw [← hb]; exact hmin)).1
      have := hc d _ hmin
      omega
  · intro i
    have := cellKey_lt g.numCells (cell_lt g hv hcs heps i) (hv i)
    have e : cellMultiplier g.numCells 0 = ∏ d, g.numCells d := by
      unfold cellMultiplier
      simp
    rw [← e]
    exact this

/-- **C13, documented formula** (docstring of `compute_keys`): for every point
`key = batch_id * prod_d num_cells_d + sum_d c_d * prod_{d' > d} num_cells_d'`
with `c` the point's grid cell. -/
theorem C13_key_formula (g : Grid D K) (hv : g.c.Valid) (hcs : ∀ d, 0 < g.cs d)
    (heps : 0 < g.eps) (i : Fin g.c.n) (lo : Fin D → K)
    (hlo : ∀ d, aabbMin g.eps g.c (g.c.batch i) d = some (lo d)) :
    (g.key i : ℤ) = g.c.batch i * ∏ d, (g.numCells d : ℤ) +
      ∑ d, ⌊(g.c.pts i d - lo d) / g.cs d⌋ * ∏ d' ∈ Finset.univ.filter (d < ·), (g.numCells d' : ℤ) := by
  unfold Grid.key cellKey
  push_cast
  congr 1
  · unfold cellMultiplier
    push_cast
    simp
  · apply Finset.sum_congr rfl
    intro d _
    rw [(cell_eq_floor g hv hcs heps i d _ (hlo d)).1]
    congr 1
    unfold cellMultiplier
    rw [Finset.prod_filter]
    push_cast
    apply Finset.prod_congr rfl
    intro d' _
    simp only [Fin.lt_def, Nat.lt_iff_add_one_le]

end

/-- Witness for `eps = 0` (float32 absorbs 1e-9): five points of two batch
elements, cell size 1. -/
abbrev badGrid : Grid 2 ℚ where
  c := ⟨5, ![![0, 0], ![2, 0], ![0, 1], ![1, 0], ![0, 0]], ![0, 0, 0, 0, 1], 2⟩
  cs := ![1, 1]
  eps := 0

/-- **C13, negation for `eps = 0`.** Keys then collide: points `(0,1)` and
`(1,0)` of element 0 lie in different cells but share a key, and the point
`(2,0)` of element 0 shares its key with the point of element 1. -/
theorem C13_keys_eps0_false :
    badGrid.c.Valid ∧ badGrid.key (2 : Fin 5) = badGrid.key (3 : Fin 5) ∧
    (badGrid.c.batch (2 : Fin 5) = 0 ∧ badGrid.c.batch (3 : Fin 5) = 0 ∧
      ¬ SameCell 0 badGrid.c badGrid.cs 0 (badGrid.c.pts (2 : Fin 5)) (badGrid.c.pts (3 : Fin 5))) ∧
    badGrid.key (1 : Fin 5) = badGrid.key (4 : Fin 5) ∧
    badGrid.c.batch (1 : Fin 5) ≠ badGrid.c.batch (4 : Fin 5) := by
  refine ⟨by decide, by decide +kernel, ⟨by decide, by decide, ?_⟩, by decide +kernel, by decide⟩
  intro h
  have := h 0 0 (by decide +kernel)
  exact absurd this (by decide +kernel)

section
variable {K : Type*} [Field K] [LinearOrder K] [IsStrictOrderedRing K] [FloorRing K] {D : ℕ}

/-- **C13, what holds for any `eps`** (also 0): points of one element in one
cell have the same key.  Missing: the converse. -/
theorem C13_same_cell_same_key_partial (g : Grid D K) (i j : Fin g.c.n)
    (hb : g.c.batch i = g.c.batch j)
    (hc : SameCell g.eps g.c g.cs (g.c.batch i) (g.c.pts i) (g.c.pts j)) : g.key i = g.key j := by
  unfold Grid.key
  rw [← hb]
  congr 1
  funext d
  obtain ⟨a, _, hmin, _⟩ := aabbMin_own g.eps g.c i d
  have := hc d _ hmin
  unfold Grid.cell Grid.clampCell
  rw [← hb, hmin]
  simp only [this]

/-- The hypotheses of C13 are met by the same points with `eps = 1/10`, where
the colliding pairs get different keys. -/
example : let g : Grid 2 ℚ := { badGrid with eps := 1 / 10 }
    g.c.Valid ∧ (∀ d, 0 < g.cs d) ∧ 0 < g.eps ∧ g.key (2 : Fin 5) ≠ g.key (3 : Fin 5) ∧
      g.key (1 : Fin 5) ≠ g.key (4 : Fin 5) := by
  refine ⟨by decide, by decide +kernel, by norm_num, by decide +kernel, by decide +kernel⟩

/-! ## C14 -/

/-- **C14, permutation.** The sorted points with their batch ids and keys are a
rearrangement of the input triples: position `k` holds the data of input
point `_sorted_indices[k]`, and every input point occurs exactly once. -/
theorem C14_sorted_is_permutation (g : Grid D K) :
    (∀ k, g.sortedPts k = g.c.pts (g.perm k) ∧ g.sortedBatch k = g.c.batch (g.perm k) ∧
      g.sortedKey k = g.key (g.perm k)) ∧
    (List.ofFn (fun k => (g.sortedPts k, g.sortedBatch k, g.sortedKey k))).Perm
      (List.ofFn (fun i => (g.c.pts i, g.c.batch i, g.key i))) ∧
    Function.Bijective g.perm := by
  refine ⟨fun k => ⟨rfl, rfl, rfl⟩, ?_, g.perm.bijective⟩
  exact Equiv.Perm.ofFn_comp_perm g.perm (fun i => (g.c.pts i, g.c.batch i, g.key i))

/-- **C14, order.** Keys are non-increasing along the sorted order, so the
points of each cell are contiguous; equal keys keep their input order. -/
theorem C14_sorted_order (g : Grid D K) :
    (∀ k l, k ≤ l → g.sortedKey l ≤ g.sortedKey k) ∧
    (∀ k l m, k ≤ l → l ≤ m → g.sortedKey k = g.sortedKey m → g.sortedKey l = g.sortedKey k) ∧
    (∀ k l, k < l → g.sortedKey k = g.sortedKey l → g.perm k < g.perm l) := by
  refine ⟨fun k l h => sortedKey_antitone g h, ?_, ?_⟩
  · intro k l m hkl hlm h
    have h1 := sortedKey_antitone g hkl
    have h2 := sortedKey_antitone g hlm
    omega
  · intro k l hkl h
    exact argsortDesc_tie g.key hkl h

/-- **C14, contiguity of batch elements** (`eps > 0`). -/
theorem C14_batch_contiguous (g : Grid D K) (hv : g.c.Valid) (hcs : ∀ d, 0 < g.cs d)
    (heps : 0 < g.eps) :
    (∀ k l, k ≤ l → g.sortedBatch l ≤ g.sortedBatch k) ∧
    ∀ k l m, k ≤ l → l ≤ m → g.sortedBatch k = g.sortedBatch m →
      g.sortedBatch l = g.sortedBatch k := by
  have hdiv : ∀ k, g.sortedBatch k = g.sortedKey k / cellMultiplier g.numCells 0 := by
    intro k
    have hlt := localKey_lt g.numCells (g.cell (g.perm k)) (cell_lt g hv hcs heps _)
    unfold Grid.sortedKey Grid.key Grid.sortedBatch
    rw [cellKey_eq, Nat.mul_comm, Nat.mul_add_div (by omega), Nat.div_eq_of_lt hlt, Nat.add_zero]
  have hanti : ∀ k l, k ≤ l → g.sortedBatch l ≤ g.sortedBatch k := by
    intro k l h
    rw [hdiv, hdiv]
    exact Nat.div_le_div_right (sortedKey_antitone g h)
  refine ⟨hanti, ?_⟩
  intro k l m h1 h2 h
  have := hanti _ _ h1
  have := hanti _ _ h2
  omega

/-! ## C15 -/

/-- Point `p` of batch element `b` has `i` as its `d`-th cell coordinate. -/
def InColumn (eps : K) (c : Cloud (Fin D → K)) (cs : Fin D → K) (b : ℕ) (d : Fin D) (p : Fin D → K)
    (i : ℕ) : Prop :=
  ∀ lo, aabbMin eps c b d = some lo → ⌊(p d - lo) / cs d⌋ = i

theorem sortedKey_ds {k : ℕ} (g : Grid (k + 2) K) (hv : g.c.Valid) (hcs : ∀ d, 0 < g.cs d)
    (heps : 0 < g.eps) (p : Fin g.c.n) :
    g.sortedKey p / cellMultiplier g.numCells 2 =
      (g.sortedBatch p * g.numCells 0 + g.cell (g.perm p) 0) * g.numCells 1 + g.cell (g.perm p) 1 :=
  cellKey_div g.numCells _ _ (fun d => cell_lt g hv hcs heps _ _)

/-- **C15.** On both devices the access structure is built, and the half-open
range stored at `[b, i, j]` contains sorted index `p` exactly when the `p`-th
sorted point belongs to batch element `b` and has first two cell coordinates
`(i, j)`; cells without points have the empty range `(0, 0)`. -/
theorem C15_access_structure_exact {k : ℕ} (dev : Device) (g : Grid (k + 2) K) (hv : g.c.Valid)
    (hcs : ∀ d, 0 < g.cs d) (heps : 0 < g.eps) :
    ∃ ds, g.getDS dev = .ok ds ∧
      ∀ b i j, i < g.numCells 0 → j < g.numCells 1 →
        (∀ p : Fin g.c.n, ((ds b i j).1 ≤ p.val ∧ p.val < (ds b i j).2) ↔
          (g.sortedBatch p = b ∧ InColumn g.eps g.c g.cs b 0 (g.sortedPts p) i ∧
            InColumn g.eps g.c g.cs b 1 (g.sortedPts p) j)) ∧
        ((∀ p : Fin g.c.n, ¬ ((ds b i j).1 ≤ p.val ∧ p.val < (ds b i j).2)) → ds b i j = (0, 0)) ∧
        (ds b i j).1 ≤ (ds b i j).2 ∧ (ds b i j).2 ≤ g.c.n := by
  have hlt : ¬ ∃ p, g.c.B * g.numCells 0 * g.numCells 1 ≤
      g.sortedKey p / cellMultiplier g.numCells 2 := by
    rintro ⟨p, hp⟩
    rw [sortedKey_ds g hv hcs heps] at hp
    have := ds_index_lt (hv (g.perm p)) (cell_lt g hv hcs heps (g.perm p) 0)
      (cell_lt g hv hcs heps (g.perm p) 1)
    exact absurd hp (not_le.mpr this)
  refine ⟨_, by unfold Grid.getDS buildGridDs; rw [if_neg (fun h => hlt h.2)], ?_⟩
  intro b i j hi hj
  have hmono : ∀ p q : Fin g.c.n, p ≤ q → g.sortedKey q / cellMultiplier g.numCells 2 ≤
      g.sortedKey p / cellMultiplier g.numCells 2 :=
    fun p q h => Nat.div_le_div_right (sortedKey_antitone g h)
  obtain ⟨h1, h2, h3, h4⟩ := dsEntry_spec
    (fun p => g.sortedKey p / cellMultiplier g.numCells 2) hmono
    ((b * g.numCells 0 + i) * g.numCells 1 + j)
  refine ⟨fun p => ?_, ?_, h3, h4⟩
  · rw [h1 p]
    rw [sortedKey_ds g hv hcs heps]
    have c0 := cell_lt g hv hcs heps (g.perm p) 0
    have c1 := cell_lt g hv hcs heps (g.perm p) 1
    obtain ⟨a0, _, m0, _⟩ := aabbMin_own g.eps g.c (g.perm p) 0
    obtain ⟨a1, _, m1, _⟩ := aabbMin_own g.eps g.c (g.perm p) 1
    have f0 := (cell_eq_floor g hv hcs heps (g.perm p) 0 _ m0).1
    have f1 := (cell_eq_floor g hv hcs heps (g.perm p) 1 _ m1).1
    constructor
    · intro h
      obtain ⟨rfl, rfl, rfl⟩ := ds_index_inj c0 c1 hi hj h
      refine ⟨rfl, ?_, ?_⟩
      · intro lo hlo
        exact (cell_eq_floor g hv hcs heps (g.perm p) 0 _ hlo).1.symm
      · intro lo hlo
        exact (cell_eq_floor g hv hcs heps (g.perm p) 1 _ hlo).1.symm
    · rintro ⟨rfl, hi', hj'⟩
      have e0 := hi' _ m0
      have e1 := hj' _ m1
      unfold Grid.sortedPts at e0 e1
      have : g.cell (g.perm p) 0 = i := by omega
      have : g.cell (g.perm p) 1 = j := by omega
      simp_all
  · intro h
    exact h2 (fun p hp => h p ((h1 p).mpr hp))

/-- Non-vacuity of C15: the table of the five points above with `eps = 1/10`
(three occupied columns of element 0, one of element 1). -/
example : ((Grid.getDS .cpu ({ badGrid with eps := 1 / 10 } : Grid 2 ℚ)).map
    (fun ds => [ds 0 0 0, ds 0 1 0, ds 0 2 0, ds 0 0 1, ds 1 0 0, ds 1 1 0])) =
      .ok [(4, 5), (2, 3), (1, 2), (3, 4), (0, 1), (0, 0)] := by
  decide +kernel

/-- **C15, negation for `eps = 0`.** For the three points `(0,0), (2,0), (2,0)`
with cell size 1 the table cannot be built on the CPU (segment id out of
range), and on the GPU two of the sorted points are in no entry of the table. -/
theorem C15_access_structure_eps0_false :
    let g : Grid 2 ℚ := ⟨⟨3, ![![0, 0], ![2, 0], ![2, 0]], ![0, 0, 0], 1⟩, ![1, 1], 0⟩
    (g.getDS .cpu).map (fun _ => ()) = .error .invalidArgument ∧
    g.numCells 0 = 2 ∧ g.numCells 1 = 1 ∧
    (g.getDS .gpu).map (fun ds => (ds 0 0 0, ds 0 1 0)) = .ok ((2, 3), (0, 0)) := by
  decide +kernel

end

end PC
