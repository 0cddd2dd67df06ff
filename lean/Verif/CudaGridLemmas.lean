import Verif.CudaGrid
import Verif.GridLemmas

/-! Helper lemmas about the CUDA key functions. -/

set_option linter.unusedVariables false
set_option linter.unusedSectionVars false

namespace PC

/-- Product of the cell counts from dimension `d` on. -/
def mulZ {D : ℕ} (nc : Fin D → ℤ) (d : ℕ) : ℤ := ∏ d' : Fin D, if d ≤ d'.val then nc d' else 1

/-- The part of the key stemming from the dimensions from `i` on. -/
def tailKey {D : ℕ} (nc cell : Fin D → ℤ) (i : ℕ) : ℤ :=
  ∑ d : Fin D, if i ≤ d.val then cell d * mulZ nc (d.val + 1) else 0

theorem ptAt_lt {D : ℕ} (p : Fin D → ℤ) {i : ℕ} (h : i < D) : ptAt p i = p ⟨i, h⟩ := dif_pos h

theorem ptAt_val {D : ℕ} (p : Fin D → ℤ) (d : Fin D) : ptAt p d.val = p d := dif_pos d.isLt

theorem mulZ_step {D : ℕ} (nc : Fin D → ℤ) {i : ℕ} (h : i < D) :
    mulZ nc i = mulZ nc (i + 1) * ptAt nc i := by
  rw [ptAt_lt nc h]
  have e : nc ⟨i, h⟩ = ∏ d' : Fin D, if d' = ⟨i, h⟩ then nc d' else 1 := by
    rw [Finset.prod_ite_eq' Finset.univ (⟨i, h⟩ : Fin D) nc]; simp
  rw [e, mulZ, mulZ, ← Finset.prod_mul_distrib]
  refine Finset.prod_congr rfl (fun d _ => ?_)
  by_cases h1 : d = ⟨i, h⟩
  · subst h1; simp
  · have h2 : d.val ≠ i := fun e => h1 (Fin.ext e)
    rw [if_neg h1, mul_one]
    by_cases h3 : i ≤ d.val
    · rw [if_pos h3, if_pos (by omega)]
    · rw [if_neg h3, if_neg (by omega)]

theorem tailKey_step {D : ℕ} (nc cell : Fin D → ℤ) {i : ℕ} (h : i < D) :
    tailKey nc cell i = tailKey nc cell (i + 1) + ptAt cell i * mulZ nc (i + 1) := by
  rw [ptAt_lt cell h]
  have e : cell ⟨i, h⟩ * mulZ nc (i + 1) =
      ∑ d : Fin D, if d = ⟨i, h⟩ then cell d * mulZ nc (d.val + 1) else 0 := by
    rw [Finset.sum_ite_eq' Finset.univ (⟨i, h⟩ : Fin D) (fun d => cell d * mulZ nc (d.val + 1))]
    simp
  rw [e, tailKey, tailKey, ← Finset.sum_add_distrib]
  refine Finset.sum_congr rfl (fun d _ => ?_)
  by_cases h1 : d = ⟨i, h⟩
  · subst h1; simp
  · have h2 : d.val ≠ i := fun e => h1 (Fin.ext e)
    rw [if_neg h1, add_zero]
    by_cases h3 : i ≤ d.val
    · rw [if_pos h3, if_pos (by omega)]
    · rw [if_neg h3, if_neg (by omega)]

theorem mulZ_top {D : ℕ} (nc : Fin D → ℤ) : mulZ nc D = 1 := by
  unfold mulZ
  refine Finset.prod_eq_one (fun d _ => ?_)
  rw [if_neg (by have := d.isLt; omega)]

theorem tailKey_top {D : ℕ} (nc cell : Fin D → ℤ) : tailKey nc cell D = 0 := by
  unfold tailKey
  refine Finset.sum_eq_zero (fun d _ => ?_)
  rw [if_neg (by have := d.isLt; omega)]

theorem cuKeyLoop_eq {D : ℕ} (nc cell : Fin D → ℤ) (i : ℕ) (h : i ≤ D) :
    cuKeyLoop nc cell i (tailKey nc cell i, mulZ nc i) = (tailKey nc cell 0, mulZ nc 0) := by
  induction i with
  | zero => rfl
  | succ i ih =>
    have e := ih (by omega)
    rw [tailKey_step nc cell (by omega : i < D), mulZ_step nc (by omega : i < D)] at e
    exact e

theorem cuKey_eq {D : ℕ} (nc cell : Fin D → ℤ) (b : ℤ) :
    cuKey cell nc b = tailKey nc cell 0 + mulZ nc 0 * b := by
  have e := cuKeyLoop_eq nc cell D le_rfl
  rw [tailKey_top, mulZ_top] at e
  unfold cuKey
  rw [e]

theorem mulZ_cast {D : ℕ} (nc : Fin D → ℕ) (d : ℕ) :
    mulZ (fun i => (nc i : ℤ)) d = (cellMultiplier nc d : ℤ) := by
  unfold mulZ cellMultiplier
  rw [Nat.cast_prod]
  refine Finset.prod_congr rfl (fun d' _ => ?_)
  split <;> simp

theorem tailKey_cast {D : ℕ} (nc cell : Fin D → ℕ) :
    tailKey (fun i => (nc i : ℤ)) (fun i => (cell i : ℤ)) 0 = (localKey nc cell : ℤ) := by
  unfold tailKey localKey
  rw [Nat.cast_sum]
  refine Finset.sum_congr rfl (fun d _ => ?_)
  rw [if_pos (Nat.zero_le _), mulZ_cast, Nat.cast_mul]

theorem cuKey_cast {D : ℕ} (nc cell : Fin D → ℕ) (b : ℕ) :
    cuKey (fun i => (cell i : ℤ)) (fun i => (nc i : ℤ)) (b : ℤ) = (cellKey nc b cell : ℤ) := by
  rw [cuKey_eq, tailKey_cast, mulZ_cast, cellKey_eq]
  push_cast
  ring

/-! ### decoding -/

theorem cuDecodeLoop_spec {D : ℕ} (nc : Fin D → ℤ) (hn : ∀ d, 0 < nc d) (i : ℕ) (hi : i ≤ D)
    (aux : ℤ) (ha : 0 ≤ aux) (r : ℕ → ℤ) :
    0 ≤ (cuDecodeLoop nc i (aux, r)).1 ∧
    (∀ j, i ≤ j → (cuDecodeLoop nc i (aux, r)).2 (j + 1) = r (j + 1)) ∧
    (∀ j, j < i → 0 ≤ (cuDecodeLoop nc i (aux, r)).2 (j + 1) ∧
      (cuDecodeLoop nc i (aux, r)).2 (j + 1) < ptAt nc j) ∧
    aux * mulZ nc i + tailKey nc (fun d => r (d.val + 1)) i =
      (cuDecodeLoop nc i (aux, r)).1 * mulZ nc 0 +
        tailKey nc (fun d => (cuDecodeLoop nc i (aux, r)).2 (d.val + 1)) 0 := by
  induction i generalizing aux r with
  | zero => exact ⟨ha, fun j _ => rfl, fun j hj => absurd hj (Nat.not_lt_zero j), rfl⟩
  | succ i ih =>
    have hpos : 0 < ptAt nc i := by rw [ptAt_lt nc (by omega)]; exact hn _
    have hdef : cuDecodeLoop nc (i + 1) (aux, r) = cuDecodeLoop nc i
        (aux.tdiv (ptAt nc i), Function.update r (i + 1) (aux.tmod (ptAt nc i))) := rfl
    obtain ⟨h1, h2, h3, h4⟩ := ih (by omega) (aux.tdiv (ptAt nc i))
      (Int.tdiv_nonneg ha hpos.le) (Function.update r (i + 1) (aux.tmod (ptAt nc i)))
    rw [hdef]
    refine ⟨h1, ?_, ?_, ?_⟩
    · intro j hj
      rw [h2 j (by omega), Function.update_of_ne (show j + 1 ≠ i + 1 by omega)]
    · intro j hj
      by_cases e : j = i
      · subst e
        rw [h2 j le_rfl, Function.update_self]
        exact ⟨Int.tmod_nonneg _ ha, Int.tmod_lt_of_pos _ hpos⟩
      · exact h3 j (by omega)
    · rw [← h4, tailKey_step nc (fun d => Function.update r (i + 1) (aux.tmod (ptAt nc i)) (d.val + 1))
        (by omega : i < D), mulZ_step nc (by omega : i < D)]
      have e5 : ptAt (fun d : Fin D => Function.update r (i + 1) (aux.tmod (ptAt nc i)) (d.val + 1)) i =
          aux.tmod (ptAt nc i) :=
        (ptAt_lt _ (by omega : i < D)).trans (Function.update_self _ _ _)
      rw [e5]
      have e1 : tailKey nc (fun d => Function.update r (i + 1) (aux.tmod (ptAt nc i)) (d.val + 1))
          (i + 1) = tailKey nc (fun d => r (d.val + 1)) (i + 1) := by
        unfold tailKey
        refine Finset.sum_congr rfl (fun d _ => ?_)
        by_cases hd : i + 1 ≤ d.val
        · rw [if_pos hd, if_pos hd]
          dsimp only
          rw [Function.update_of_ne (show d.val + 1 ≠ i + 1 by omega)]
        · rw [if_neg hd, if_neg hd]
      rw [e1]
      have e2 := Int.tmod_add_mul_tdiv aux (ptAt nc i)
      have e3 : aux * mulZ nc (i + 1) =
          (aux.tmod (ptAt nc i) + ptAt nc i * aux.tdiv (ptAt nc i)) * mulZ nc (i + 1) := by rw [e2]
      rw [e3]
      ring

theorem cuDecode_spec {D : ℕ} (nc : Fin D → ℤ) (hn : ∀ d, 0 < nc d) (key : ℤ) (hk : 0 ≤ key) :
    0 ≤ (cuDecode key nc).1 ∧ (∀ d, 0 ≤ (cuDecode key nc).2 d ∧ (cuDecode key nc).2 d < nc d) ∧
    cuKey (cuDecode key nc).2 nc (cuDecode key nc).1 = key := by
  obtain ⟨h1, h2, h3, h4⟩ := cuDecodeLoop_spec nc hn D le_rfl key hk (fun _ => 0)
  rw [mulZ_top, tailKey_top, mul_one, add_zero] at h4
  refine ⟨h1, ?_, ?_⟩
  · intro d
    have := h3 d.val d.isLt
    rw [ptAt_val] at this
    exact this
  · rw [cuKey_eq]
    refine Eq.trans ?_ h4.symm
    unfold cuDecode
    ring

theorem cuKey_inj {D : ℕ} (nc : Fin D → ℤ) {b b' : ℤ} {cell cell' : Fin D → ℤ}
    (hb : 0 ≤ b) (hb' : 0 ≤ b') (h : ∀ d, 0 ≤ cell d ∧ cell d < nc d)
    (h' : ∀ d, 0 ≤ cell' d ∧ cell' d < nc d) (he : cuKey cell nc b = cuKey cell' nc b') :
    b = b' ∧ cell = cell' := by
  have hn : ∀ d, 0 ≤ nc d := fun d => (h d).1.trans (h d).2.le
  lift b to ℕ using hb
  lift b' to ℕ using hb'
  obtain ⟨nc', rfl⟩ : ∃ nc' : Fin D → ℕ, nc = fun i => (nc' i : ℤ) :=
    ⟨fun i => (nc i).toNat, funext fun i => (Int.toNat_of_nonneg (hn i)).symm⟩
  obtain ⟨c, rfl⟩ : ∃ c : Fin D → ℕ, cell = fun i => (c i : ℤ) :=
    ⟨fun i => (cell i).toNat, funext fun i => (Int.toNat_of_nonneg (h i).1).symm⟩
  obtain ⟨c', rfl⟩ : ∃ c' : Fin D → ℕ, cell' = fun i => (c' i : ℤ) :=
    ⟨fun i => (cell' i).toNat, funext fun i => (Int.toNat_of_nonneg (h' i).1).symm⟩
  rw [cuKey_cast, cuKey_cast] at he
  obtain ⟨e1, e2⟩ := cellKey_inj nc' (b := b) (b' := b') (cell := c) (cell' := c')
    (fun d => Int.ofNat_lt.mp (h d).2) (fun d => Int.ofNat_lt.mp (h' d).2) (Int.ofNat_inj.mp he)
  exact ⟨by rw [e1], by rw [e2]⟩

theorem cuDecode_cuKey {D : ℕ} (nc : Fin D → ℤ) {b : ℤ} {cell : Fin D → ℤ} (hb : 0 ≤ b)
    (h : ∀ d, 0 ≤ cell d ∧ cell d < nc d) : cuDecode (cuKey cell nc b) nc = (b, cell) := by
  have hn : ∀ d, 0 < nc d := fun d => lt_of_le_of_lt (h d).1 (h d).2
  have hm : ∀ i, 0 ≤ mulZ nc i := fun i => by
    unfold mulZ
    refine Finset.prod_nonneg (fun d _ => ?_)
    split
    · exact (hn d).le
    · exact zero_le_one
  have hk : 0 ≤ cuKey cell nc b := by
    rw [cuKey_eq]
    have h1 : 0 ≤ tailKey nc cell 0 := by
      unfold tailKey
      refine Finset.sum_nonneg (fun d _ => ?_)
      rw [if_pos (Nat.zero_le _)]
      exact mul_nonneg (h d).1 (hm _)
    have h2 := mul_nonneg (hm 0) hb
    omega
  obtain ⟨h1, h2, h3⟩ := cuDecode_spec nc hn (cuKey cell nc b) hk
  obtain ⟨e1, e2⟩ := cuKey_inj nc h1 hb h2 h h3
  exact Prod.ext e1 e2

theorem cuDivLoop_eq {k : ℕ} (nc : Fin (k + 2) → ℤ) : cuDivLoop nc k = mulZ nc 2 := by
  have h : ∀ i, i ≤ k → cuDivLoop nc i = ∏ d' : Fin (k + 2),
      if 2 ≤ d'.val ∧ d'.val < i + 2 then nc d' else 1 := by
    intro i hi
    induction i with
    | zero =>
      refine (Finset.prod_eq_one (fun d _ => ?_)).symm
      rw [if_neg (by omega)]
    | succ i ih =>
      have hlt : i + 2 < k + 2 := by omega
      rw [cuDivLoop, ih (by omega), ptAt_lt nc hlt]
      have e : nc ⟨i + 2, hlt⟩ = ∏ d' : Fin (k + 2), if d' = ⟨i + 2, hlt⟩ then nc d' else 1 := by
        rw [Finset.prod_ite_eq' Finset.univ (⟨i + 2, hlt⟩ : Fin (k + 2)) nc]; simp
      rw [e, ← Finset.prod_mul_distrib]
      refine Finset.prod_congr rfl (fun d _ => ?_)
      by_cases h1 : d = ⟨i + 2, hlt⟩
      · subst h1; simp
      · have h2 : d.val ≠ i + 2 := fun e => h1 (Fin.ext e)
        rw [if_neg h1, mul_one]
        by_cases h3 : 2 ≤ d.val ∧ d.val < i + 2
        · rw [if_pos h3, if_pos (by omega)]
        · rw [if_neg h3, if_neg (by omega)]
  rw [h k le_rfl]
  unfold mulZ
  refine Finset.prod_congr rfl (fun d _ => ?_)
  have := d.isLt
  by_cases h3 : 2 ≤ d.val
  · rw [if_pos h3, if_pos (by omega)]
  · rw [if_neg h3, if_neg (by omega)]

theorem cuDsFromKey_cast {k : ℕ} (nc : Fin (k + 2) → ℕ) (key : ℕ) :
    cuDsFromKey (key : ℤ) (fun i => (nc i : ℤ)) = ((key / cellMultiplier nc 2 : ℕ) : ℤ) := by
  unfold cuDsFromKey
  have e : k + 2 - 2 = k := rfl
  rw [e, cuDivLoop_eq, mulZ_cast, Int.tdiv_eq_ediv_of_nonneg (by positivity)]
  push_cast
  rfl

theorem cuTotal_eq {D : ℕ} (nc : Fin D → ℤ) : cuTotal nc = mulZ nc 0 := by
  have h : ∀ i, i ≤ D → cuTotalLoop nc i * mulZ nc i = mulZ nc 0 := by
    intro i hi
    induction i with
    | zero => rw [cuTotalLoop, one_mul]
    | succ i ih =>
      rw [← ih (by omega), mulZ_step nc (by omega : i < D), cuTotalLoop]
      ring
  have := h D le_rfl
  rw [mulZ_top, mul_one] at this
  exact this

end PC
