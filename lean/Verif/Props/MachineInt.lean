import Verif.MachineInt
import Verif.Props.CudaGrid
import Verif.Props.Grid
import Mathlib.Data.Int.ModEq

/-!
# Properties C100–C102: machine integers and rounding
-/

set_option linter.unusedVariables false
set_option linter.unusedSectionVars false

namespace PC

/-! ### Helper lemmas -/

theorem wrap32_modEq (x : ℤ) : wrap32 x ≡ x [ZMOD (2 ^ 32)] := by
  unfold wrap32
  have := Int.dvd_bmod_sub_self (x := x) (m := 2 ^ 32)
  exact (Int.modEq_iff_dvd.2 (by simpa using this)).symm

theorem wrap64_modEq (x : ℤ) : wrap64 x ≡ x [ZMOD (2 ^ 64)] := by
  unfold wrap64
  have := Int.dvd_bmod_sub_self (x := x) (m := 2 ^ 64)
  exact (Int.modEq_iff_dvd.2 (by simpa using this)).symm

theorem wrap32_congr {x y : ℤ} (h : x ≡ y [ZMOD (2 ^ 32)]) : wrap32 x = wrap32 y := by
  unfold wrap32
  have h' : x % ((2 ^ 32 : ℕ) : ℤ) = y % ((2 ^ 32 : ℕ) : ℤ) := by exact_mod_cast h
  rw [← Int.emod_bmod x, ← Int.emod_bmod y, h']

theorem wrap64_congr {x y : ℤ} (h : x ≡ y [ZMOD (2 ^ 64)]) : wrap64 x = wrap64 y := by
  unfold wrap64
  have h' : x % ((2 ^ 64 : ℕ) : ℤ) = y % ((2 ^ 64 : ℕ) : ℤ) := by exact_mod_cast h
  rw [← Int.emod_bmod x, ← Int.emod_bmod y, h']

theorem wrap32_of_range {x : ℤ} (h0 : 0 ≤ x) (h1 : x < 2 ^ 31) : wrap32 x = x := by
  unfold wrap32
  rw [Int.bmod_eq_iff (by norm_num)]
  norm_num
  omega

theorem wrap64_of_range {x : ℤ} (h0 : 0 ≤ x) (h1 : x < 2 ^ 63) : wrap64 x = x := by
  unfold wrap64
  rw [Int.bmod_eq_iff (by norm_num)]
  norm_num
  omega

theorem tfMul32Loop_modEq {D : ℕ} (nc : Fin D → ℤ) (j : ℕ) (hj : j ≤ D) :
    tfMul32Loop nc j ≡ mulZ nc (D - j) [ZMOD (2 ^ 32)] := by
  induction j with
  | zero => rw [tfMul32Loop, Nat.sub_zero, mulZ_top]
  | succ j ih =>
    rw [tfMul32Loop, mulZ_step nc (by omega : D - (j + 1) < D)]
    have e1 : D - (j + 1) + 1 = D - j := by omega
    have e2 : D - 1 - j = D - (j + 1) := by omega
    rw [e1, e2]
    exact (wrap32_modEq _).trans ((ih (by omega)).mul_right _)

theorem tfMul32_modEq {D : ℕ} (nc : Fin D → ℤ) (d : ℕ) (hd : d ≤ D) :
    tfMul32 nc d ≡ mulZ nc d [ZMOD (2 ^ 32)] := by
  have := tfMul32Loop_modEq nc (D - d) (by omega)
  rwa [show D - (D - d) = d by omega] at this

theorem foldl_wrap32 (l : List ℤ) (a : ℤ) :
    l.foldl (fun a x => wrap32 (a + x)) a ≡ a + l.sum [ZMOD (2 ^ 32)] := by
  induction l generalizing a with
  | nil => simp
  | cons x l ih =>
    rw [List.foldl_cons, List.sum_cons, ← add_assoc]
    exact (ih _).trans ((wrap32_modEq _).add_right _)

theorem sum_modEq {ι : Type*} (l : List ι) (f g : ι → ℤ) (n : ℤ) (h : ∀ x ∈ l, f x ≡ g x [ZMOD n]) :
    (l.map f).sum ≡ (l.map g).sum [ZMOD n] := by
  induction l with
  | nil => exact Int.ModEq.refl _
  | cons x l ih =>
    rw [List.map_cons, List.map_cons, List.sum_cons, List.sum_cons]
    exact (h x (by simp)).add (ih (fun y hy => h y (by simp [hy])))

theorem tfKey32_eq {D : ℕ} (nc cell : Fin D → ℤ) (b : ℤ) : tfKey32 nc cell b = wrap32 (cuKey cell nc b) := by
  unfold tfKey32
  apply wrap32_congr
  rw [cuKey_eq, add_comm]
  refine Int.ModEq.add ?_ ?_
  · refine (foldl_wrap32 _ _).trans ?_
    rw [zero_add]
    refine (sum_modEq _ _ (fun d => cell d * mulZ nc (d.val + 1)) _ ?_).trans ?_
    · intro d _
      exact (wrap32_modEq _).trans ((tfMul32_modEq nc _ d.isLt).mul_left _)
    · unfold tailKey
      simp only [Nat.zero_le, if_true]
      rw [← List.ofFn_eq_map, List.sum_ofFn]
  · rw [mul_comm (mulZ nc 0)]
    exact (wrap32_modEq _).trans ((tfMul32_modEq nc 0 (Nat.zero_le _)).mul_left _)

theorem cuKey64Loop_modEq {D : ℕ} (nc cell : Fin D → ℤ) (i : ℕ) (s t : ℤ × ℤ) (h1 : s.1 ≡ t.1 [ZMOD (2 ^ 64)])
    (h2 : s.2 ≡ t.2 [ZMOD (2 ^ 64)]) : (cuKey64Loop nc cell i s).1 ≡ (cuKeyLoop nc cell i t).1 [ZMOD (2 ^ 64)] ∧
    (cuKey64Loop nc cell i s).2 ≡ (cuKeyLoop nc cell i t).2 [ZMOD (2 ^ 64)] := by
  induction i generalizing s t with
  | zero => exact ⟨h1, h2⟩
  | succ i ih =>
    obtain ⟨s1, s2⟩ := s
    obtain ⟨t1, t2⟩ := t
    rw [cuKey64Loop, cuKeyLoop]
    refine ih _ _ ?_ ?_
    · exact (wrap64_modEq _).trans (h1.add ((wrap64_modEq _).trans (h2.mul_left _)))
    · exact (wrap64_modEq _).trans (h2.mul_right _)

theorem cuKey64_eq {D : ℕ} (nc cell : Fin D → ℤ) (b : ℤ) : cuKey64 cell nc b = wrap64 (cuKey cell nc b) := by
  unfold cuKey64 cuKey
  have h := cuKey64Loop_modEq nc cell D (0, 1) (0, 1) (Int.ModEq.refl _) (Int.ModEq.refl _)
  exact wrap64_congr (h.1.add ((wrap64_modEq _).trans (h.2.mul_right _)))

theorem cuDiv64Loop_modEq {D : ℕ} (nc : Fin D → ℤ) (i : ℕ) : cuDiv64Loop nc i ≡ cuDivLoop nc i [ZMOD (2 ^ 64)] := by
  induction i with
  | zero => exact Int.ModEq.refl _
  | succ i ih =>
    rw [cuDiv64Loop, cuDivLoop]
    exact (wrap64_modEq _).trans (ih.mul_right _)

theorem cuDiv64Loop_wrap {D : ℕ} (nc : Fin D → ℤ) (i : ℕ) : cuDiv64Loop nc i = wrap64 (cuDivLoop nc i) := by
  cases i with
  | zero =>
    change (1 : ℤ) = wrap64 1
    exact (wrap64_of_range (by norm_num) (by norm_num)).symm
  | succ i => 
    rw [cuDiv64Loop, cuDivLoop]
    exact wrap64_congr ((cuDiv64Loop_modEq nc i).mul_right _)

/-! ## C100 -/

section
variable {K : Type*} [Field K] [LinearOrder K] [IsStrictOrderedRing K] [FloorRing K] {D : ℕ}

/-- **C100, TensorFlow in general**: the key computed with 32 bit integers is the
exact key modulo 2^32 (signed). -/
theorem C100_tf_key_modulo (g : Grid D K) (i : Fin g.c.n) : g.key32 i = Int.bmod (g.key i) (2 ^ 32) := by
  unfold Grid.key32 Grid.key
  rw [tfKey32_eq, cuKey_cast]
  rfl

/-- **C100, TensorFlow**: with at most 2^31 cells over all batch elements the 32 bit
key is exact. -/
theorem C100_tf_exact_partial (g : Grid D K) (hv : g.c.Valid) (hcs : ∀ d, 0 < g.cs d) (heps : 0 < g.eps)
    (hn : g.c.B * ∏ d, g.numCells d ≤ 2 ^ 31) (i : Fin g.c.n) : g.key32 i = g.key i := by
  have h := (C13_keys_identify g hv hcs heps).2 i
  rw [C100_tf_key_modulo]
  exact wrap32_of_range (by positivity) (by exact_mod_cast lt_of_lt_of_le h hn)

/-- **C100, CUDA**: with at most 2^63 cells over all batch elements the 64 bit key of
the kernel is exact. -/
theorem C100_cuda_exact (g : Grid D K) (hv : g.c.Valid) (hcs : ∀ d, 0 < g.cs d) (heps : 0 < g.eps)
    (hn : g.c.B * ∏ d, g.numCells d ≤ 2 ^ 63) (i : Fin g.c.n) :
    cuGridKey64 g (g.c.batch i) (g.c.pts i) = g.key i := by
  have h := (C13_keys_identify g hv hcs heps).2 i
  have e : cuGridKey64 g (g.c.batch i) (g.c.pts i) = wrap64 (cuGridKey g (g.c.batch i) (g.c.pts i)) := by
    unfold cuGridKey64 cuGridKey cuPointKey
    exact cuKey64_eq _ _ _
  rw [e, C81_same_keys g hv hcs heps]
  exact wrap64_of_range (by positivity) (by exact_mod_cast lt_of_lt_of_le h hn)

end

theorem prod_split {k : ℕ} (nc : Fin (k + 2) → ℕ) : ∏ d, nc d = nc 0 * nc 1 * cellMultiplier nc 2 := by
  rw [Fin.prod_univ_succ, Fin.prod_univ_succ, mul_assoc]
  congr 2
  unfold cellMultiplier
  rw [Fin.prod_univ_succ, Fin.prod_univ_succ]
  simp

/-- **C100, CUDA, access structure**: with fewer than 2^63 cells and at most 2^31 entries
of the access structure, the index computed from the key of a cell and the index
computed from the cell agree with the exact ones and lie in the table. -/
theorem C100_cuda_table_index {k : ℕ} (nc : Fin (k + 2) → ℕ) (B b : ℕ) (cell : Fin (k + 2) → ℕ) (hb : b < B)
    (hc : ∀ d, cell d < nc d) (hn : B * ∏ d, nc d < 2 ^ 63) (h2 : B * nc 0 * nc 1 ≤ 2 ^ 31) :
    cuDsFromKey64 (cellKey nc b cell) (fun d => (nc d : ℤ)) = ((b * nc 0 + cell 0) * nc 1 + cell 1 : ℕ) ∧
    cuDsFromCell32 b (fun d => (cell d : ℤ)) (fun d => (nc d : ℤ)) = ((b * nc 0 + cell 0) * nc 1 + cell 1 : ℕ) ∧
    (b * nc 0 + cell 0) * nc 1 + cell 1 < B * nc 0 * nc 1 := by
  have hpos : ∀ d, 0 < nc d := fun d => (Nat.zero_le _).trans_lt (hc d)
  have hlt : (b * nc 0 + cell 0) * nc 1 + cell 1 < B * nc 0 * nc 1 := ds_index_lt hb (hc 0) (hc 1)
  have hkey := cellKey_div nc b cell (fun d => hc _)
  have hk := cellKey_lt nc (b := b) (B := B) hc hb
  have hm0 : cellMultiplier nc 0 = ∏ d, nc d := by unfold cellMultiplier; simp
  rw [hm0] at hk
  have hm2 : cellMultiplier nc 2 ≤ B * ∏ d, nc d := by
    rw [prod_split, ← mul_assoc]
    exact Nat.le_mul_of_pos_left _ (Nat.mul_pos (by omega) (Nat.mul_pos (hpos 0) (hpos 1)))
  have hlt' : (((b * nc 0 + cell 0) * nc 1 + cell 1 : ℕ) : ℤ) < 2 ^ 31 := by exact_mod_cast lt_of_lt_of_le hlt h2
  refine ⟨?_, ?_, hlt⟩
  · unfold cuDsFromKey64
    have e : k + 2 - 2 = k := rfl
    rw [e, cuDiv64Loop_wrap, cuDivLoop_eq, mulZ_cast,
      wrap64_of_range (x := (cellMultiplier nc 2 : ℤ)) (Int.natCast_nonneg _)
        ((Nat.cast_lt (α := ℤ)).2 (lt_of_le_of_lt hm2 hn) |>.trans_eq (by norm_num)),
      Int.tdiv_eq_ediv_of_nonneg (by positivity)]
    have : ((cellKey nc b cell : ℤ) / (cellMultiplier nc 2 : ℤ)) = ((b * nc 0 + cell 0) * nc 1 + cell 1 : ℕ) := by
      rw [← hkey]
      push_cast
      rfl
    rw [this, wrap64_of_range (Int.natCast_nonneg _) (hlt'.trans (by norm_num)), wrap32_of_range (Int.natCast_nonneg _) hlt']
  · unfold cuDsFromCell32
    have e : wrap32 (wrap32 (wrap32 (wrap32 ((b : ℤ) * ptAt (fun d => (nc d : ℤ)) 0) * ptAt (fun d => (nc d : ℤ)) 1) +
        wrap32 (ptAt (fun d => (cell d : ℤ)) 0 * ptAt (fun d => (nc d : ℤ)) 1)) + ptAt (fun d => (cell d : ℤ)) 1) =
        wrap32 (((b * nc 0 + cell 0) * nc 1 + cell 1 : ℕ) : ℤ) := by
      apply wrap32_congr
      refine ((wrap32_modEq _).trans (((wrap32_modEq _).trans ((wrap32_modEq _).mul_right _)).add (wrap32_modEq _))).add_right _
        |>.trans ?_
      rw [ptAt_lt _ (by omega : 0 < k + 2), ptAt_lt _ (by omega : 1 < k + 2), ptAt_lt _ (by omega : 0 < k + 2),
        ptAt_lt _ (by omega : 1 < k + 2)]
      push_cast
      have e0 : (⟨0, by omega⟩ : Fin (k + 2)) = 0 := rfl
      have e1 : (⟨1, by omega⟩ : Fin (k + 2)) = 1 := rfl
      rw [e0, e1, add_mul]
    rw [e, wrap32_of_range (Int.natCast_nonneg _) hlt']

/-- Two batch elements with the same two points, in a grid of 65536 x 65536 cells. -/
abbrev exBig : Grid 2 ℚ :=
  ⟨{ n := 4, B := 2, pts := fun i => if i.val % 2 = 0 then fun _ => 0 else fun _ => 65535, batch := fun i => i.val / 2 },
    fun _ => 1, 1 / 1000⟩

/-- **C100, TensorFlow, negative**: with more cells two points of different batch
elements can get the same key. -/
theorem C100_tf_false : ¬ ∀ (g : Grid 2 ℚ), g.c.Valid → (∀ d, 0 < g.cs d) → 0 < g.eps → ∀ i j,
    g.key32 i = g.key32 j → g.c.batch i = g.c.batch j := by
  intro h
  have h1 := h exBig (by intro i; decide +revert +kernel) (fun _ => by norm_num) (by norm_num) (1 : Fin 4) (3 : Fin 4)
    (by rw [C100_tf_key_modulo, C100_tf_key_modulo]; decide +kernel)
  revert h1
  decide

/-- On the same cloud the CUDA keys are exact. -/
example : ∀ i : Fin 4, cuGridKey64 exBig (exBig.c.batch i) (exBig.c.pts i) = exBig.key i := by
  intro i
  exact C100_cuda_exact exBig (by intro i; decide +revert +kernel) (fun _ => by norm_num) (by norm_num) (by decide +kernel) i

/-- The hypotheses of the exactness theorems are met. -/
example : exKeyGrid.c.B * ∏ d, exKeyGrid.numCells d ≤ 2 ^ 31 := by decide +kernel

/-! ## C101 -/

section
variable {K : Type*} [Field K] [LinearOrder K] [IsStrictOrderedRing K] [FloorRing K]

/-- Specification: a rounding to a format with `p` digits, in the range used here:
monotone, exact on small integers, relative error at most `2^-p`. -/
structure RoundsTo (p : ℕ) (rnd : K → K) : Prop where
  mono : Monotone rnd
  exact : ∀ m : ℕ, m < 2 ^ p → rnd m = m
  error : ∀ x, 0 ≤ x → rnd x ≤ x + x / 2 ^ p

/-- **C101**: the floating point division of keys by the number of cells of a column
never changes the index of the access structure. -/
theorem C101_division_exact {p : ℕ} {rnd : K → K} (h : RoundsTo p rnd) (key tube : ℕ) (ht : 0 < tube) (hk : key < 2 ^ p) :
    tfDsIndex rnd key tube = (key / tube : ℕ) := by
  unfold tfDsIndex
  have hT : (0 : K) < tube := by exact_mod_cast ht
  have hq : key / tube < 2 ^ p := (Nat.div_le_self _ _).trans_lt hk
  have hm := Nat.div_add_mod key tube
  have hr := Nat.mod_lt key ht
  set q := key / tube
  set r := key % tube
  have hx : ((key : ℤ) : K) / ((tube : ℤ) : K) = q + r / tube := by
    rw [← hm]
    push_cast
    field_simp
  rw [hx, Int.floor_eq_iff]
  constructor
  · push_cast
    calc (q : K) = rnd q := (h.exact q hq).symm
      _ ≤ _ := h.mono (by
        have : (0 : K) ≤ r / tube := by positivity
        linarith)
  · push_cast
    have h0 : (0 : K) ≤ q + r / tube := by positivity
    refine (h.error _ h0).trans_lt ?_
    have h2 : (q + r / tube : K) / 2 ^ p < 1 / tube := by
      rw [div_lt_div_iff₀ (by positivity) hT]
      have : ((q : K) + r / tube) * tube = key := by
        rw [← hm]
        push_cast
        field_simp
      rw [this, one_mul]
      exact_mod_cast hk
    have h3 : (r : K) / tube + 1 / tube ≤ 1 := by
      rw [← add_div, div_le_one hT]
      exact_mod_cast hr
    linarith

end

theorem tfTube32_eq {k : ℕ} (nc : Fin (k + 2) → ℕ) (h : cellMultiplier nc 2 < 2 ^ 31) :
    tfTube32 (fun d => (nc d : ℤ)) = cellMultiplier nc 2 := by
  have h1 : ∀ (l : List (Fin k)) (a : ℤ), l.foldl (fun a d => wrap32 (a * (nc d.succ.succ : ℤ))) a ≡
      a * (l.map (fun d => (nc d.succ.succ : ℤ))).prod [ZMOD (2 ^ 32)] := by
    intro l
    induction l with
    | nil => intro a; simp
    | cons x l ih =>
      intro a
      rw [List.foldl_cons, List.map_cons, List.prod_cons, ← mul_assoc]
      exact (ih _).trans ((wrap32_modEq _).mul_right _)
  have h2 : ∀ (l : List (Fin k)) (a : ℤ), wrap32 a = a → wrap32 (l.foldl (fun a d => wrap32 (a * (nc d.succ.succ : ℤ))) a) =
      l.foldl (fun a d => wrap32 (a * (nc d.succ.succ : ℤ))) a := by
    intro l
    induction l with
    | nil => intro a ha; exact ha
    | cons x l ih =>
      intro a ha
      rw [List.foldl_cons]
      exact ih _ (wrap32_congr (wrap32_modEq _))
  have h3 : ((List.finRange k).map (fun d => (nc d.succ.succ : ℤ))).prod = cellMultiplier nc 2 := by
    rw [← List.ofFn_eq_map, List.prod_ofFn]
    unfold cellMultiplier
    rw [Fin.prod_univ_succ, Fin.prod_univ_succ]
    simp
  unfold tfTube32
  rw [← h2 _ 1 (wrap32_of_range (by norm_num) (by norm_num)), wrap32_congr (h1 _ 1), one_mul, h3]
  exact wrap32_of_range (Int.natCast_nonneg _) (by exact_mod_cast h)

/-- **C101 with C100**: with at most 2^31 cells, 32 bit integers and division in any
format with at least 31 digits (float64), the index into the access structure is
the index of the 2D cell of the point. -/
theorem C101_table_index {K : Type*} [Field K] [LinearOrder K] [IsStrictOrderedRing K] [FloorRing K] {k p : ℕ}
    {rnd : K → K} (hp : 31 ≤ p) (hr : RoundsTo p rnd) (g : Grid (k + 2) K)
    (hv : g.c.Valid) (hcs : ∀ d, 0 < g.cs d) (heps : 0 < g.eps) (hn : g.c.B * ∏ d, g.numCells d < 2 ^ 31) (i : Fin g.c.n) :
    tfDsIndex rnd (g.key32 i) (tfTube32 (fun d => (g.numCells d : ℤ))) =
      ((g.c.batch i * g.numCells 0 + g.cell i 0) * g.numCells 1 + g.cell i 1 : ℕ) := by
  have hpos := numCells_pos g
  have hB : 0 < g.c.B := (Nat.zero_le _).trans_lt (hv i)
  have hm2 : cellMultiplier g.numCells 2 < 2 ^ 31 := by
    refine lt_of_le_of_lt ?_ hn
    rw [prod_split, ← mul_assoc]
    exact Nat.le_mul_of_pos_left _ (Nat.mul_pos hB (Nat.mul_pos (hpos 0) (hpos 1)))
  rw [tfTube32_eq _ hm2, C100_tf_exact_partial g hv hcs heps hn.le, C101_division_exact hr _ _ (cellMultiplier_pos _ hpos 2)]
  · rw [Grid.key, cellKey_div _ _ _ (fun d => cell_lt g hv hcs heps i _)]
  · exact ((C13_keys_identify g hv hcs heps).2 i).trans (hn.trans_le (Nat.pow_le_pow_right (by norm_num) hp))

/-- The identity is such a rounding; the proof of `C101_needs_float64` contains
another one. -/
example : RoundsTo 53 (id : ℚ → ℚ) :=
  ⟨monotone_id, fun _ _ => rfl, fun x hx => by
    have : 0 ≤ x / 2 ^ 53 := by positivity
    simp only [id]
    linarith⟩

/-- **C101, the format matters**: with 24 digits (float32) a rounding as specified can
give a wrong index for 32 bit keys. -/
theorem C101_needs_float64 : ¬ ∀ (rnd : ℚ → ℚ), RoundsTo 24 rnd → ∀ key tube : ℕ, 0 < tube → key < 2 ^ 31 →
    tfDsIndex rnd key tube = (key / tube : ℕ) := by
  intro h
  have h1 := h (fun x => if 2 ^ 24 - 1 / 2 < x ∧ x < 2 ^ 24 then 2 ^ 24 else x) ⟨?_, ?_, ?_⟩ (2 ^ 31 - 1) 128
    (by norm_num) (by norm_num)
  · revert h1
    unfold tfDsIndex
    decide +kernel
  · intro x y hxy
    dsimp only
    split_ifs with h1 h2 h2
    · exact le_rfl
    · by_contra h3
      exact h2 ⟨h1.1.trans_le hxy, not_le.1 h3⟩
    · exact hxy.trans h2.2.le
    · exact hxy
  · intro m hm
    rw [if_neg]
    rintro ⟨h1, h2⟩
    have h3 : m ≤ 2 ^ 24 - 1 := by omega
    have h4 : (m : ℚ) ≤ 2 ^ 24 - 1 := by
      have : ((m : ℕ) : ℚ) ≤ ((2 ^ 24 - 1 : ℕ) : ℚ) := Nat.cast_le.2 h3
      refine this.trans (by norm_num)
    linarith
  · intro x hx
    split_ifs with h1
    · have : (1 : ℚ) / 2 ≤ x / 2 ^ 24 := by
        rw [le_div_iff₀ (by norm_num)]
        linarith [h1.1]
      linarith [h1.1]
    · have : 0 ≤ x / 2 ^ 24 := by positivity
      linarith

/-! ## C102 -/

section
variable {K : Type*} [Field K] [LinearOrder K] [IsStrictOrderedRing K] [FloorRing K] {D : ℕ}

/-- **C102, CUDA**: whatever the rounding does to the quotients, the cell of a point
lies in the grid, its key in the range of its batch element and the index into the
access structure in the table. -/
theorem C102_cuda_in_range {k : ℕ} (nc : Fin (k + 2) → ℕ) (hn : ∀ d, 0 < nc d) (q : Fin (k + 2) → ℤ) (B b : ℕ) (hb : b < B) :
    (∀ d, 0 ≤ cuClampCell q (fun d => (nc d : ℤ)) d ∧ cuClampCell q (fun d => (nc d : ℤ)) d < nc d) ∧
    (b * ∏ d, nc d : ℕ) ≤ cuKey (cuClampCell q (fun d => (nc d : ℤ))) (fun d => (nc d : ℤ)) b ∧
    cuKey (cuClampCell q (fun d => (nc d : ℤ))) (fun d => (nc d : ℤ)) b < ((b + 1) * ∏ d, nc d : ℕ) ∧
    0 ≤ cuDsFromKey (cuKey (cuClampCell q (fun d => (nc d : ℤ))) (fun d => (nc d : ℤ)) b) (fun d => (nc d : ℤ)) ∧
    cuDsFromKey (cuKey (cuClampCell q (fun d => (nc d : ℤ))) (fun d => (nc d : ℤ)) b) (fun d => (nc d : ℤ)) <
      (B * nc 0 * nc 1 : ℕ) := by
  have h1 : ∀ d, 0 ≤ cuClampCell q (fun d => (nc d : ℤ)) d ∧ cuClampCell q (fun d => (nc d : ℤ)) d < nc d := by
    intro d
    have := hn d
    unfold cuClampCell
    dsimp only
    omega
  obtain ⟨c, hc⟩ : ∃ c : Fin (k + 2) → ℕ, cuClampCell q (fun d => (nc d : ℤ)) = fun i => (c i : ℤ) :=
    ⟨fun i => (cuClampCell q (fun d => (nc d : ℤ)) i).toNat, funext fun i => (Int.toNat_of_nonneg (h1 i).1).symm⟩
  refine ⟨h1, ?_⟩
  rw [hc] at h1 ⊢
  have hcl : ∀ d, c d < nc d := fun d => Int.ofNat_lt.mp (h1 d).2
  have hm0 : cellMultiplier nc 0 = ∏ d, nc d := by unfold cellMultiplier; simp
  rw [cuKey_cast, cuDsFromKey_cast, cellKey_div nc b c (fun d => hcl _)]
  have hk := cellKey_lt nc (b := b) (B := b + 1) hcl (by omega)
  rw [hm0] at hk
  refine ⟨?_, by exact_mod_cast hk, by positivity, by exact_mod_cast ds_index_lt hb (hcl 0) (hcl 1)⟩
  rw [cellKey_eq, hm0]
  exact_mod_cast Nat.le_add_right _ _

/-- **C102, TensorFlow, any monotone rounding**: the rounded quotient of a point is at
most the number of cells; the cell is outside of the grid only if the quotient is
an integer. -/
theorem C102_tf_partial (rnd : K → K) (hr : Monotone rnd) (g : Grid D K) (hv : g.c.Valid) (hcs : ∀ d, 0 < g.cs d)
    (heps : 0 ≤ g.eps) (hx : ∀ i d, rnd (g.c.pts i d) = g.c.pts i d) (i : Fin g.c.n) (d : Fin D) :
    ⌊g.quotR rnd i d⌋ ≤ g.numCellsR rnd d ∧ (g.cellR rnd i d = g.numCellsR rnd d → (⌊g.quotR rnd i d⌋ : K) = g.quotR rnd i d) := by
  obtain ⟨a, ha, hmin⟩ : ∃ a, g.c.batch a = g.c.batch i ∧ segMin (fun i => g.c.pts i d) g.c.batch (g.c.batch i) = some (g.c.pts a d) := by
    cases h : segMin (fun i => g.c.pts i d) g.c.batch (g.c.batch i) with
    | none => rw [segMin_eq_none] at h; exact absurd rfl (h i)
    | some v =>
      rw [segMin_eq_some] at h
      obtain ⟨⟨j, hj, rfl⟩, hle⟩ := h
      exact ⟨j, hj, rfl⟩
  obtain ⟨z, hz, hmax, hzle⟩ : ∃ a, g.c.batch a = g.c.batch i ∧
      segMax (fun i => g.c.pts i d) g.c.batch (g.c.batch i) = some (g.c.pts a d) ∧ g.c.pts i d ≤ g.c.pts a d := by
    cases h : segMax (fun i => g.c.pts i d) g.c.batch (g.c.batch i) with
    | none => rw [segMax_eq_none] at h; exact absurd rfl (h i)
    | some v =>
      rw [segMax_eq_some] at h
      obtain ⟨⟨j, hj, rfl⟩, hle⟩ := h
      exact ⟨j, hj, rfl, hle i rfl⟩
  have hq : g.quotR rnd i d = rnd (rnd (g.c.pts i d - rnd (g.c.pts a d - g.eps)) / g.cs d) := by
    unfold Grid.quotR Grid.loR
    rw [hmin]
    rfl
  have hb : g.batchNumCellsR rnd (g.c.batch i) d =
      ⌈rnd (rnd (rnd (g.c.pts z d + g.eps) - rnd (g.c.pts a d - g.eps)) / g.cs d)⌉.toNat := by
    unfold Grid.batchNumCellsR Grid.loR Grid.hiR
    rw [hmin, hmax]
    rfl
  have hn : g.batchNumCellsR rnd (g.c.batch i) d ≤ g.numCellsR rnd d := by
    unfold Grid.numCellsR
    exact le_trans (Finset.le_sup (f := fun b => g.batchNumCellsR rnd b d) (Finset.mem_range.mpr (hv i))) (le_max_left _ _)
  have hp : g.c.pts i d ≤ rnd (g.c.pts z d + g.eps) := by
    calc g.c.pts i d ≤ g.c.pts z d := hzle
      _ = rnd (g.c.pts z d) := (hx z d).symm
      _ ≤ _ := hr (by linarith)
  have hle : g.quotR rnd i d ≤ ((g.numCellsR rnd d : ℤ) : K) := by
    rw [hq]
    refine (hr ((div_le_div_iff_of_pos_right (hcs d)).2 (hr (sub_le_sub_right hp _)))).trans ?_
    refine (Int.le_ceil _).trans ?_
    rw [Int.cast_le]
    refine (Int.self_le_toNat _).trans ?_
    rw [← hb]
    exact_mod_cast hn
  have hfl : ⌊g.quotR rnd i d⌋ ≤ g.numCellsR rnd d := by
    have := Int.floor_le_floor hle
    rwa [Int.floor_intCast] at this
  refine ⟨hfl, ?_⟩
  intro hc
  have h1 : 1 ≤ g.numCellsR rnd d := by unfold Grid.numCellsR; omega
  unfold Grid.cellR at hc
  have h2 : ⌊g.quotR rnd i d⌋ = g.numCellsR rnd d := by omega
  have h3 := Int.floor_le (g.quotR rnd i d)
  rw [h2] at h3 ⊢
  exact le_antisymm h3 hle

/-- Without rounding the model with rounding is the model of `Grid.lean`. -/
theorem C102_exact (g : Grid D K) (i : Fin g.c.n) (d : Fin D) :
    g.numCellsR id d = g.numCells d ∧ g.cellR id i d = g.cell i d := by
  have h1 : g.numCellsR id d = g.numCells d := by
    unfold Grid.numCellsR Grid.numCells
    congr 2
  refine ⟨h1, ?_⟩
  unfold Grid.cellR Grid.cell Grid.quotR Grid.clampCell
  rw [h1]
  have h2 : g.loR id (g.c.batch i) d = aabbMin g.eps g.c (g.c.batch i) d := rfl
  rw [h2]
  cases aabbMin g.eps g.c (g.c.batch i) d with
  | none => simp
  | some lo => rfl

end

/-- The hypotheses of `C102_tf_partial` are met by rounding down to integers and
integer coordinates. -/
example : Monotone (fun x : ℚ => (⌊x⌋ : ℚ)) ∧ ∀ i d, ((⌊exBig.c.pts i d⌋ : ℤ) : ℚ) = exBig.c.pts i d := by
  refine ⟨fun x y h => Int.cast_le.2 (Int.floor_le_floor h), by decide +kernel⟩

/-! ### float32 and the border of 1e-9 -/

/-- A rounding with the relative error of float32: coordinates of size at least one
half are rounded to the nearest multiple of 2^-24, smaller ones are kept. -/
abbrev rndF (x : ℚ) : ℚ := if 1 / 2 ≤ x then (⌊x * 2 ^ 24 + 1 / 2⌋ : ℚ) / 2 ^ 24 else x

theorem rndF_mono : Monotone rndF := by
  intro x y h
  unfold rndF
  split_ifs with h1 h2 h2
  · have : ⌊x * 2 ^ 24 + 1 / 2⌋ ≤ ⌊y * 2 ^ 24 + 1 / 2⌋ := Int.floor_le_floor (by linarith)
    have : (⌊x * 2 ^ 24 + 1 / 2⌋ : ℚ) ≤ ⌊y * 2 ^ 24 + 1 / 2⌋ := by exact_mod_cast this
    exact div_le_div_of_nonneg_right this (by norm_num)
  · linarith
  · have : (2 ^ 23 : ℤ) ≤ ⌊y * 2 ^ 24 + 1 / 2⌋ := Int.le_floor.2 (by push_cast; linarith)
    have : (2 ^ 23 : ℚ) ≤ ⌊y * 2 ^ 24 + 1 / 2⌋ := by exact_mod_cast this
    rw [le_div_iff₀ (by norm_num)]
    linarith
  · exact h

theorem rndF_error (x : ℚ) : |rndF x - x| ≤ |x| / 2 ^ 24 := by
  unfold rndF
  split_ifs with h
  · have h1 := Int.floor_le (x * 2 ^ 24 + 1 / 2)
    have h2 := Int.lt_floor_add_one (x * 2 ^ 24 + 1 / 2)
    rw [abs_of_pos (show (0 : ℚ) < x by linarith), abs_le]
    constructor <;> linarith
  · simp only [sub_self, abs_zero]
    positivity

/-- Two shapes in the unit square; the first one has the corner `(1, 1)`. -/
abbrev exUnit : Grid 2 ℚ :=
  ⟨{ n := 4, B := 2, pts := fun i => if i.val = 1 then fun _ => 1 else if i.val = 3 then fun d => if d = 0 then 3 / 4 else 1 / 4 else fun _ => 0,
     batch := fun i => i.val / 2 }, fun _ => 1 / 2, 1 / 10 ^ 9⟩

/-- **C102, TensorFlow, negative**: with float32 the border of 1e-9 is lost next to
coordinates of ordinary size; the cell of a point on the border is then outside of
the grid. -/
theorem C102_tf_false : ¬ ∀ (rnd : ℚ → ℚ), Monotone rnd → (∀ x, |rnd x - x| ≤ |x| / 2 ^ 24) →
    ∀ g : Grid 2 ℚ, g.c.Valid → (∀ d, 0 < g.cs d) → g.eps = 1 / 10 ^ 9 → (∀ i d, rnd (g.c.pts i d) = g.c.pts i d) →
    ∀ i d, g.cellR rnd i d < g.numCellsR rnd d := by
  intro h
  have := h rndF rndF_mono rndF_error exUnit (by intro i; decide +revert +kernel) (fun _ => by norm_num) rfl
    (by decide +kernel) (1 : Fin 4) 0
  revert this
  decide +kernel

/-- **C102, TensorFlow, consequence**: points of different batch elements can share a
key, here the corner of the first shape and a point in the middle of the second. -/
theorem C102_tf_batches_false : ¬ ∀ (rnd : ℚ → ℚ), Monotone rnd → (∀ x, |rnd x - x| ≤ |x| / 2 ^ 24) →
    ∀ g : Grid 2 ℚ, g.c.Valid → (∀ d, 0 < g.cs d) → g.eps = 1 / 10 ^ 9 → (∀ i d, rnd (g.c.pts i d) = g.c.pts i d) →
    ∀ i j, cellKey (g.numCellsR rnd) (g.c.batch i) (g.cellR rnd i) = cellKey (g.numCellsR rnd) (g.c.batch j) (g.cellR rnd j) →
      g.c.batch i = g.c.batch j := by
  intro h
  have := h rndF rndF_mono rndF_error exUnit (by intro i; decide +revert +kernel) (fun _ => by norm_num) rfl
    (by decide +kernel) (1 : Fin 4) (3 : Fin 4) (by decide +kernel)
  revert this
  decide

end PC
