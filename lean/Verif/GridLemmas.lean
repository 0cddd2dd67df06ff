import Verif.Grid
import Mathlib.Algebra.Order.Floor.Ring
import Mathlib.Algebra.Order.BigOperators.Ring.Finset
import Mathlib.Tactic.Positivity
import Mathlib.Tactic.FieldSimp
import Mathlib.Tactic.NormNum
import Mathlib.Data.Rat.Floor

/-! Helper lemmas about keys, cells and the access structure. -/

set_option linter.unusedVariables false
set_option linter.unusedSectionVars false

namespace PC

/-! ### mixed radix arithmetic -/

theorem cellMultiplier_succ {D : ℕ} (nc : Fin (D + 1) → ℕ) (d : ℕ) :
    cellMultiplier nc (d + 1) = cellMultiplier (fun i => nc i.succ) d := by
  unfold cellMultiplier
  rw [Fin.prod_univ_succ]
  simp

theorem cellMultiplier_zero {D : ℕ} (nc : Fin (D + 1) → ℕ) :
    cellMultiplier nc 0 = nc 0 * cellMultiplier nc 1 := by
  unfold cellMultiplier
  rw [Fin.prod_univ_succ, Fin.prod_univ_succ]
  simp

theorem cellMultiplier_nil (nc : Fin 0 → ℕ) (d : ℕ) : cellMultiplier nc d = 1 := by
  simp [cellMultiplier]

theorem cellMultiplier_pos {D : ℕ} (nc : Fin D → ℕ) (h : ∀ d, 0 < nc d) (d : ℕ) :
    0 < cellMultiplier nc d := by
  unfold cellMultiplier
  apply Finset.prod_pos
  intro d' _
  split
  · exact h d'
  · exact Nat.one_pos

/-- The part of the key below the batch. -/
def localKey {D : ℕ} (nc cell : Fin D → ℕ) : ℕ :=
  ∑ d : Fin D, cell d * cellMultiplier nc (d.val + 1)

theorem cellKey_eq {D : ℕ} (nc : Fin D → ℕ) (b : ℕ) (cell : Fin D → ℕ) :
    cellKey nc b cell = b * cellMultiplier nc 0 + localKey nc cell := rfl

theorem localKey_succ {D : ℕ} (nc cell : Fin (D + 1) → ℕ) :
    localKey nc cell = cell 0 * cellMultiplier nc 1 +
      localKey (fun i => nc i.succ) (fun i => cell i.succ) := by
  unfold localKey
  rw [Fin.sum_univ_succ]
  simp only [Fin.val_zero, Nat.zero_add, Fin.val_succ]
  congr 1
  apply Finset.sum_congr rfl
  intro d _
  rw [cellMultiplier_succ]

theorem localKey_lt {D : ℕ} (nc cell : Fin D → ℕ) (h : ∀ d, cell d < nc d) :
    localKey nc cell < cellMultiplier nc 0 := by
  induction D with
  | zero => simp [localKey, cellMultiplier_nil]
  | succ D ih =>
    rw [localKey_succ, cellMultiplier_zero]
    have h1 := ih (fun i => nc i.succ) (fun i => cell i.succ) (fun d => h d.succ)
    rw [← cellMultiplier_succ] at h1
    have h0 := h 0
    calc cell 0 * cellMultiplier nc 1 + _ < cell 0 * cellMultiplier nc 1 + cellMultiplier nc 1 := by
          simpa using h1
      _ = (cell 0 + 1) * cellMultiplier nc 1 := by ring
      _ ≤ _ := Nat.mul_le_mul_right _ h0

theorem mul_add_inj {a a' m r r' : ℕ} (hr : r < m) (hr' : r' < m) (h : a * m + r = a' * m + r') :
    a = a' ∧ r = r' := by
  have hm : 0 < m := by omega
  have e1 : (a * m + r) / m = a := by
    rw [Nat.mul_comm, Nat.mul_add_div hm, Nat.div_eq_of_lt hr, Nat.add_zero]
  have e2 : (a' * m + r') / m = a' := by
    rw [Nat.mul_comm, Nat.mul_add_div hm, Nat.div_eq_of_lt hr', Nat.add_zero]
  have : a = a' := by rw [← e1, ← e2, h]
  subst this
  exact ⟨rfl, by omega⟩

theorem localKey_inj {D : ℕ} (nc cell cell' : Fin D → ℕ) (h : ∀ d, cell d < nc d)
    (h' : ∀ d, cell' d < nc d) (he : localKey nc cell = localKey nc cell') : cell = cell' := by
  induction D with
  | zero => exact Subsingleton.elim _ _
  | succ D ih =>
    rw [localKey_succ, localKey_succ] at he
    have h1 := localKey_lt (fun i => nc i.succ) (fun i => cell i.succ) (fun d => h d.succ)
    have h2 := localKey_lt (fun i => nc i.succ) (fun i => cell' i.succ) (fun d => h' d.succ)
    rw [← cellMultiplier_succ] at h1 h2
    obtain ⟨e1, e2⟩ := mul_add_inj h1 h2 he
    have e3 := ih _ _ _ (fun d => h d.succ) (fun d => h' d.succ) e2
    funext d
    refine Fin.cases e1 (fun i => ?_) d
    exact congrFun e3 i

theorem cellKey_inj {D : ℕ} (nc : Fin D → ℕ) {b b' : ℕ} {cell cell' : Fin D → ℕ}
    (h : ∀ d, cell d < nc d) (h' : ∀ d, cell' d < nc d)
    (he : cellKey nc b cell = cellKey nc b' cell') : b = b' ∧ cell = cell' := by
  rw [cellKey_eq, cellKey_eq] at he
  obtain ⟨e1, e2⟩ := mul_add_inj (localKey_lt nc cell h) (localKey_lt nc cell' h') he
  exact ⟨e1, localKey_inj nc cell cell' h h' e2⟩

theorem cellKey_lt {D : ℕ} (nc : Fin D → ℕ) {b B : ℕ} {cell : Fin D → ℕ}
    (h : ∀ d, cell d < nc d) (hb : b < B) : cellKey nc b cell < B * cellMultiplier nc 0 := by
  rw [cellKey_eq]
  calc b * cellMultiplier nc 0 + localKey nc cell
      < b * cellMultiplier nc 0 + cellMultiplier nc 0 := by simpa using localKey_lt nc cell h
    _ = (b + 1) * cellMultiplier nc 0 := by ring
    _ ≤ _ := Nat.mul_le_mul_right _ hb

/-- Dividing a key by the number of cells of a tube gives the 2D cell. -/
theorem cellKey_div {k : ℕ} (nc : Fin (k + 2) → ℕ) (b : ℕ) (cell : Fin (k + 2) → ℕ)
    (h : ∀ d : Fin k, cell d.succ.succ < nc d.succ.succ) :
    cellKey nc b cell / cellMultiplier nc 2 = (b * nc 0 + cell 0) * nc 1 + cell 1 := by
  have hlt := localKey_lt (fun i : Fin k => nc i.succ.succ) (fun i => cell i.succ.succ) h
  have e2 : cellMultiplier nc 2 = cellMultiplier (fun i : Fin k => nc i.succ.succ) 0 := by
    exact (cellMultiplier_succ nc 1).trans (cellMultiplier_succ (fun i => nc i.succ) 0)
  have e1 : cellMultiplier nc 1 = nc 1 * cellMultiplier nc 2 := by
    refine (cellMultiplier_succ nc 0).trans ?_
    rw [cellMultiplier_zero, ← cellMultiplier_succ]
    rfl
  have hk : cellKey nc b cell = ((b * nc 0 + cell 0) * nc 1 + cell 1) * cellMultiplier nc 2 +
      localKey (fun i : Fin k => nc i.succ.succ) (fun i => cell i.succ.succ) := by
    rw [cellKey_eq, localKey_succ, localKey_succ, cellMultiplier_zero, ← cellMultiplier_succ, e1]
    have : (Fin.succ (0 : Fin (k + 1))) = 1 := rfl
    simp only [this]
    ring
  rw [hk, e2]
  rw [Nat.mul_comm, Nat.mul_add_div (by omega), Nat.div_eq_of_lt hlt, Nat.add_zero]

/-- The flat 2D index determines batch and both coordinates. -/
theorem ds_index_inj {n0 n1 b i j b' i' j' : ℕ} (hi : i < n0) (hj : j < n1) (hi' : i' < n0)
    (hj' : j' < n1) (h : (b * n0 + i) * n1 + j = (b' * n0 + i') * n1 + j') :
    b = b' ∧ i = i' ∧ j = j' := by
  obtain ⟨e1, e2⟩ := mul_add_inj hj hj' h
  obtain ⟨e3, e4⟩ := mul_add_inj hi hi' e1
  exact ⟨e3, e4, e2⟩

theorem ds_index_lt {n0 n1 b i j B : ℕ} (hb : b < B) (hi : i < n0) (hj : j < n1) :
    (b * n0 + i) * n1 + j < B * n0 * n1 := by
  have h1 : b * n0 + i < B * n0 := by
    calc b * n0 + i < b * n0 + n0 := by omega
      _ = (b + 1) * n0 := by ring
      _ ≤ B * n0 := Nat.mul_le_mul_right _ hb
  calc (b * n0 + i) * n1 + j < (b * n0 + i) * n1 + n1 := by omega
    _ = (b * n0 + i + 1) * n1 := by ring
    _ ≤ B * n0 * n1 := Nat.mul_le_mul_right _ h1

/-! ### cells -/

section
variable {K : Type*} [Field K] [LinearOrder K] [IsStrictOrderedRing K] [FloorRing K] {D : ℕ}

theorem numCells_pos (g : Grid D K) (d : Fin D) : 0 < g.numCells d := by
  unfold Grid.numCells; omega

/-- The lower corner of the box of a point's own batch element exists. -/
theorem aabbMin_own (eps : K) (c : Cloud (Fin D → K)) (i : Fin c.n) (d : Fin D) :
    ∃ j, c.batch j = c.batch i ∧ aabbMin eps c (c.batch i) d = some (c.pts j d - eps) ∧
      ∀ i', c.batch i' = c.batch i → c.pts j d ≤ c.pts i' d := by
  unfold aabbMin
  cases h : segMin (fun i => c.pts i d) c.batch (c.batch i) with
  | none => rw [segMin_eq_none] at h; exact absurd rfl (h i)
  | some v =>
    rw [segMin_eq_some] at h
    obtain ⟨⟨j, hj, rfl⟩, hle⟩ := h
    exact ⟨j, hj, rfl, hle⟩

theorem aabbMax_own (eps : K) (c : Cloud (Fin D → K)) (i : Fin c.n) (d : Fin D) :
    ∃ j, c.batch j = c.batch i ∧ aabbMax eps c (c.batch i) d = some (c.pts j d + eps) ∧
      ∀ i', c.batch i' = c.batch i → c.pts i' d ≤ c.pts j d := by
  unfold aabbMax
  cases h : segMax (fun i => c.pts i d) c.batch (c.batch i) with
  | none => rw [segMax_eq_none] at h; exact absurd rfl (h i)
  | some v =>
    rw [segMax_eq_some] at h
    obtain ⟨⟨j, hj, rfl⟩, hle⟩ := h
    exact ⟨j, hj, rfl, hle⟩

theorem batchNumCells_le (g : Grid D K) (b : ℕ) (hb : b < g.c.B) (d : Fin D) :
    g.batchNumCells b d ≤ g.numCells d := by
  unfold Grid.numCells
  refine le_trans ?_ (le_max_left _ _)
  exact Finset.le_sup (f := fun b => g.batchNumCells b d) (Finset.mem_range.mpr hb)

/-- The exact relative position of a point in units of cells is below the
number of cells if `eps > 0`. -/
theorem pos_lt_numCells (g : Grid D K) (hv : g.c.Valid) (hcs : ∀ d, 0 < g.cs d) (heps : 0 < g.eps)
    (i : Fin g.c.n) (d : Fin D) (lo : K) (hlo : aabbMin g.eps g.c (g.c.batch i) d = some lo) :
    0 ≤ (g.c.pts i d - lo) / g.cs d ∧ (g.c.pts i d - lo) / g.cs d < (g.numCells d : K) := by
  obtain ⟨j, hj, hmin, hjle⟩ := aabbMin_own g.eps g.c i d
  obtain ⟨j', hj', hmax, hjle'⟩ := aabbMax_own g.eps g.c i d
  rw [hmin] at hlo
  simp only [Option.some.injEq] at hlo
  subst hlo
  have h1 := hjle i rfl
  have h2 := hjle' i rfl
  constructor
  · exact div_nonneg (by linarith) (le_of_lt (hcs d))
  · have hb : g.batchNumCells (g.c.batch i) d =
        ⌈(g.c.pts j' d + g.eps - (g.c.pts j d - g.eps)) / g.cs d⌉.toNat := by
      unfold Grid.batchNumCells
      rw [hmin, hmax]
    have hle := batchNumCells_le g (g.c.batch i) (hv i) d
    rw [hb] at hle
    have hce : (g.c.pts j' d + g.eps - (g.c.pts j d - g.eps)) / g.cs d ≤ (g.numCells d : K) := by
      have h3 := Int.le_ceil ((g.c.pts j' d + g.eps - (g.c.pts j d - g.eps)) / g.cs d)
      have h4 : ⌈(g.c.pts j' d + g.eps - (g.c.pts j d - g.eps)) / g.cs d⌉ ≤ (g.numCells d : ℤ) :=
        le_trans (Int.self_le_toNat _) (by exact_mod_cast hle)
      calc _ ≤ (⌈(g.c.pts j' d + g.eps - (g.c.pts j d - g.eps)) / g.cs d⌉ : K) := h3
        _ ≤ ((g.numCells d : ℤ) : K) := by exact_mod_cast h4
        _ = _ := by push_cast; rfl
    refine lt_of_lt_of_le ?_ hce
    rw [div_lt_div_iff_of_pos_right (hcs d)]
    linarith

/-- With `eps > 0` no clamping happens to points of the grid's cloud. -/
theorem cell_eq_floor (g : Grid D K) (hv : g.c.Valid) (hcs : ∀ d, 0 < g.cs d) (heps : 0 < g.eps)
    (i : Fin g.c.n) (d : Fin D) (lo : K) (hlo : aabbMin g.eps g.c (g.c.batch i) d = some lo) :
    (g.cell i d : ℤ) = ⌊(g.c.pts i d - lo) / g.cs d⌋ ∧ g.cell i d < g.numCells d := by
  obtain ⟨h0, h1⟩ := pos_lt_numCells g hv hcs heps i d lo hlo
  have hf0 : 0 ≤ ⌊(g.c.pts i d - lo) / g.cs d⌋ := Int.floor_nonneg.mpr h0
  have hf1 : ⌊(g.c.pts i d - lo) / g.cs d⌋ < (g.numCells d : ℤ) := by
    rw [Int.floor_lt]
    push_cast
    exact h1
  have hcell : g.cell i d = min (⌊(g.c.pts i d - lo) / g.cs d⌋.toNat) (g.numCells d) := by
    unfold Grid.cell Grid.clampCell
    rw [hlo]
  rw [hcell]
  omega

theorem cell_lt (g : Grid D K) (hv : g.c.Valid) (hcs : ∀ d, 0 < g.cs d) (heps : 0 < g.eps)
    (i : Fin g.c.n) (d : Fin D) : g.cell i d < g.numCells d := by
  obtain ⟨j, hj, hmin, hjle⟩ := aabbMin_own g.eps g.c i d
  exact (cell_eq_floor g hv hcs heps i d _ hmin).2

theorem sortedKey_antitone (g : Grid D K) {k l : Fin g.c.n} (h : k ≤ l) :
    g.sortedKey l ≤ g.sortedKey k := argsortDesc_le g.key h

end

/-! ### access structure -/

/-- For a monotone labelling the entry of a label is exactly its index range. -/
theorem dsEntry_spec {n : ℕ} (f : Fin n → ℕ) (hf : ∀ k l, k ≤ l → f l ≤ f k) (s : ℕ) :
    (∀ k : Fin n, ((dsEntry f s).1 ≤ k.val ∧ k.val < (dsEntry f s).2) ↔ f k = s) ∧
    ((∀ k, f k ≠ s) → dsEntry f s = (0, 0)) ∧ (dsEntry f s).1 ≤ (dsEntry f s).2 ∧
    (dsEntry f s).2 ≤ n := by
  unfold dsEntry
  cases h1 : segMin (fun k : Fin n => k.val) f s with
  | none =>
    rw [segMin_eq_none] at h1
    have h2 : segMax (fun k : Fin n => k.val + 1) f s = none := segMax_eq_none.mpr h1
    rw [h2]
    refine ⟨fun k => ?_, fun _ => rfl, le_rfl, Nat.zero_le _⟩
    simp [h1 k]
  | some a =>
    cases h2 : segMax (fun k : Fin n => k.val + 1) f s with
    | none =>
      rw [segMax_eq_none] at h2
      rw [segMin_eq_some] at h1
      obtain ⟨⟨i, hi, _⟩, _⟩ := h1
      exact absurd hi (h2 i)
    | some b =>
      rw [segMin_eq_some] at h1
      rw [segMax_eq_some] at h2
      obtain ⟨⟨i, hi, hia⟩, hia'⟩ := h1
      obtain ⟨⟨j, hj, hjb⟩, hjb'⟩ := h2
      simp only
      refine ⟨fun k => ⟨?_, ?_⟩, ?_, ?_, ?_⟩
      · rintro ⟨h3, h4⟩
        have e1 : f k ≤ f i := hf i k (by rw [Fin.le_def]; omega)
        have e2 : f j ≤ f k := hf k j (by rw [Fin.le_def]; omega)
        omega
      · intro hk
        have := hia' k hk
        have := hjb' k hk
        omega
      · intro hne; exact absurd hi (hne i)
      · have := hjb' i hi; omega
      · have := j.isLt; omega

end PC
