import Verif.FloatSearch
import Verif.Props.CudaStore

/-!
# C125: neighbour search in floating point arithmetic
-/

set_option linter.unusedVariables false

namespace PC

/-! ### the search for given cells -/

namespace CellCloud
variable {k : ℕ} (c : CellCloud (k + 2))

/-- All cells lie in the grid. -/
def InRange : Prop := ∀ i d, 0 ≤ c.cell i d ∧ c.cell i d < c.nc d

variable {c}

theorem sortedKeys_lt {i : ℕ} (h : i < c.n) : c.sortedKeys i = c.key (c.perm ⟨i, h⟩) := dif_pos h

theorem sortedKeys_nonneg (hc : c.InRange) {i : ℕ} (h : i < c.n) : 0 ≤ c.sortedKeys i := by
  rw [sortedKeys_lt h]
  exact cuKey_nonneg _ _ _ (by positivity) (hc _)

theorem sortedKeys_antitone (i j : ℕ) (hij : i ≤ j) (hj : j < c.n) : c.sortedKeys j ≤ c.sortedKeys i := by
  rw [sortedKeys_lt hj, sortedKeys_lt (lt_of_le_of_lt hij hj)]
  exact argsortDesc_le c.key (k := ⟨i, lt_of_le_of_lt hij hj⟩) (l := ⟨j, hj⟩) hij

theorem Built.spec (hc : c.InRange) (hn : ∀ d, 0 < c.nc d) {tab : ℤ → ℕ × ℕ} (h : c.Built tab) :
    TabSpec c.nc c.n c.sortedKeys tab := by
  obtain ⟨T, tr, hT, htr, rfl⟩ := h
  have e : keyArr (fun i : Fin c.n => (c.sortedKeys i).toNat) = c.sortedKeys := by
    funext i
    by_cases h : i < c.n
    · rw [keyArr_lt _ h, Int.toNat_of_nonneg (sortedKeys_nonneg hc h)]
    · rw [keyArr, dif_neg h, sortedKeys, dif_neg h]
  have e2 : c.nc = fun d => ((c.nc d).toNat : ℤ) := by
    funext d; exact (Int.toNat_of_nonneg (hn d).le).symm
  rw [← e, e2] at htr ⊢
  refine tabSpec_of _ _ _ ?_
  refine C54_table _ _ ?_ T hT tr htr
  intro i j hij
  exact Int.toNat_le_toNat (sortedKeys_antitone i.val j.val hij j.isLt)

/-- The examined positions of one offset, described by cells. -/
theorem range_spec (hc : c.InRange) (hn : ∀ d, 0 < c.nc d) (tab : ℤ → ℕ × ℕ) (ht : c.Built tab) (b : ℕ)
    (cell : Fin (k + 2) → ℤ) (hcell : ∀ d, 0 ≤ cell d ∧ cell d < c.nc d) (off : Fin (k + 2) → ℤ)
    (ho : off ∈ cuOffsets (k + 2) 1) (fuel : ℕ) (hf : Nat.clog 2 c.n + 1 ≤ fuel) :
    ∃ r, cuRange fuel c.nc c.sortedKeys tab 1 (cuKey cell c.nc b) off = some r ∧
      r.2 ≤ c.n ∧ ∀ i : Fin c.n, ((r.1 ≤ i.val ∧ i.val < r.2) ↔
        (∀ d, 0 ≤ cell d + off d ∧ cell d + off d < c.nc d) ∧ c.batch (c.perm i) = b ∧
        c.cell (c.perm i) 0 = cell 0 + off 0 ∧ c.cell (c.perm i) 1 = cell 1 + off 1 ∧
        (k ≠ 0 → |c.key (c.perm i) - cuKey (fun d => cell d + off d) c.nc b| ≤ 1)) := by
  have hdec := cuDecode_cuKey c.nc (b := b) (by positivity) hcell
  have hkey : 0 ≤ cuKey cell c.nc b := cuKey_nonneg _ _ _ (by positivity) hcell
  obtain ⟨ho1, ho2⟩ := (mem_cuOffsets k off).mp ho
  have hds : ∀ i : Fin c.n, (∀ d, 0 ≤ cell d + off d ∧ cell d + off d < c.nc d) →
      (cuDsFromKey (c.sortedKeys i.val) c.nc = cuDsFromCell (b : ℤ) (fun d => cell d + off d) c.nc ↔
      c.batch (c.perm i) = b ∧ c.cell (c.perm i) 0 = cell 0 + off 0 ∧ c.cell (c.perm i) 1 = cell 1 + off 1) := by
    intro i hin
    have hr := hc (c.perm i)
    obtain ⟨q1, q2⟩ := C53_ds_index c.nc (c.batch (c.perm i)) _ (by positivity) hr
    obtain ⟨_, q4⟩ := C53_ds_index c.nc b _ (by positivity) hin
    rw [sortedKeys_lt i.isLt, key, q1, q2, q4]
    constructor
    · intro he
      obtain ⟨e1, e2⟩ := mulAddInjZ (hr 1).1 (hr 1).2 (hin 1).1 (hin 1).2 he
      obtain ⟨e3, e4⟩ := mulAddInjZ (hr 0).1 (hr 0).2 (hin 0).1 (hin 0).2 e1
      exact ⟨Int.ofNat_inj.mp e3, e4, e2⟩
    · rintro ⟨e1, e2, e3⟩
      have e2' : c.cell (c.perm ⟨i.val, i.isLt⟩) 0 = cell 0 + off 0 := e2
      have e3' : c.cell (c.perm ⟨i.val, i.isLt⟩) 1 = cell 1 + off 1 := e3
      have e1' : c.batch (c.perm ⟨i.val, i.isLt⟩) = b := e1
      rw [e2', e3', e1']
  unfold cuRange
  by_cases hk : k = 0
  · subst hk
    rw [if_neg (by norm_num)]
    obtain ⟨h1, h2⟩ := cuFindRange2_spec c.nc hn c.n c.sortedKeys tab (ht.spec hc hn) (cuKey cell c.nc b) hkey off
    refine ⟨_, rfl, h1, fun i => ?_⟩
    rw [h2 i.val i.isLt, hdec]
    dsimp only
    constructor
    · rintro ⟨hin, he⟩
      exact ⟨hin, ((hds i hin).mp he).1, ((hds i hin).mp he).2.1, ((hds i hin).mp he).2.2,
        fun h => absurd rfl h⟩
    · rintro ⟨hin, e1, e2, e3, _⟩
      exact ⟨hin, (hds i hin).mpr ⟨e1, e2, e3⟩⟩
  · rw [if_pos (by omega)]
    obtain ⟨r, h1, h2, h3⟩ := cuFindRange_spec c.nc hn c.n c.sortedKeys
      (fun i hi => sortedKeys_nonneg hc hi) sortedKeys_antitone tab (ht.spec hc hn) (cuKey cell c.nc b) hkey off (ho2 hk) fuel hf
    refine ⟨r, h1, h2, fun i => ?_⟩
    rw [h3 i.val i.isLt, hdec, sortedKeys_lt i.isLt]
    dsimp only
    constructor
    · rintro ⟨hin, he, ha⟩
      rw [← sortedKeys_lt i.isLt] at he
      exact ⟨hin, ((hds i hin).mp he).1, ((hds i hin).mp he).2.1, ((hds i hin).mp he).2.2,
        fun _ => ha⟩
    · rintro ⟨hin, e1, e2, e3, ha⟩
      refine ⟨hin, ?_, ha hk⟩
      rw [← sortedKeys_lt i.isLt]
      exact (hds i hin).mpr ⟨e1, e2, e3⟩

/-- A position is examined for a centre only if it has its batch id, and at least if moreover the cells are adjacent. -/
theorem examined (hc : c.InRange) (hn : ∀ d, 0 < c.nc d) (tab : ℤ → ℕ × ℕ) (ht : c.Built tab)
    (cen : ℕ → ℕ × (Fin (k + 2) → ℤ)) (hcen : ∀ s d, 0 ≤ (cen s).2 d ∧ (cen s).2 d < c.nc d) (fuel : ℕ)
    (hf : Nat.clog 2 c.n + 1 ≤ fuel) (hit : ℕ → ℕ → Bool) (s i : ℕ) :
    (i ∈ allFinds offsetsPerBlock ((offsetBlocks (k + 2) 1).map (c.ranges fuel tab cen)) hit s →
      hit s i = true ∧ ∃ hi : i < c.n, c.batch (c.perm ⟨i, hi⟩) = (cen s).1) ∧
    (∀ hi : i < c.n, hit s i = true → c.batch (c.perm ⟨i, hi⟩) = (cen s).1 →
      (∀ d, |c.cell (c.perm ⟨i, hi⟩) d - (cen s).2 d| ≤ 1) →
      i ∈ allFinds offsetsPerBlock ((offsetBlocks (k + 2) 1).map (c.ranges fuel tab cen)) hit s) := by
  let rg : (Fin (k + 2) → ℤ) → ℕ × ℕ := fun off =>
    (cuRange fuel c.nc c.sortedKeys tab 1 (cuKey (cen s).2 c.nc (cen s).1) off).getD (0, 0)
  have hmem : i ∈ allFinds offsetsPerBlock ((offsetBlocks (k + 2) 1).map (c.ranges fuel tab cen)) hit s ↔
      hit s i = true ∧ ∃ off ∈ cuOffsets (k + 2) 1, (rg off).1 ≤ i ∧ i < (rg off).2 := by
    have e : allFinds offsetsPerBlock ((offsetBlocks (k + 2) 1).map (c.ranges fuel tab cen)) hit s =
        ((cuOffsets (k + 2) 1).flatMap (fun off => List.range' (rg off).1 ((rg off).2 - (rg off).1))).filter (hit s) := by
      rw [← offsetBlocks_flatten, allFinds, List.flatMap_map, List.flatten_eq_flatMap, List.flatMap_assoc,
        List.filter_flatMap]
      apply List.flatMap_congr
      intro l hl
      simp only [id]
      rw [← flatMap_getD l 0, offsetBlocks_length k l hl, passFinds, List.filter_flatMap]
      apply List.flatMap_congr
      intro r hr
      rw [List.mem_range] at hr
      have e1 : (s * offsetsPerBlock + r) / offsetsPerBlock = s := by unfold offsetsPerBlock at *; omega
      have e2 : (s * offsetsPerBlock + r) % offsetsPerBlock = r := by unfold offsetsPerBlock at *; omega
      unfold ranges
      simp only [e1, e2]
      rfl
    rw [e, List.mem_filter, List.mem_flatMap, and_comm]
    simp only [mem_range'_iff]
  have hrg : ∀ off ∈ cuOffsets (k + 2) 1, (rg off).2 ≤ c.n ∧ ∀ i : Fin c.n, (((rg off).1 ≤ i.val ∧ i.val < (rg off).2) ↔
        (∀ d, 0 ≤ (cen s).2 d + off d ∧ (cen s).2 d + off d < c.nc d) ∧ c.batch (c.perm i) = (cen s).1 ∧
        c.cell (c.perm i) 0 = (cen s).2 0 + off 0 ∧ c.cell (c.perm i) 1 = (cen s).2 1 + off 1 ∧
        (k ≠ 0 → |c.key (c.perm i) - cuKey (fun d => (cen s).2 d + off d) c.nc (cen s).1| ≤ 1)) := by
    intro off ho
    obtain ⟨r, h1, h2, h3⟩ := range_spec hc hn tab ht (cen s).1 (cen s).2 (hcen s) off ho fuel hf
    have e : rg off = r := by simp only [rg, h1, Option.getD_some]
    rw [e]
    exact ⟨h2, h3⟩
  rw [hmem]
  constructor
  · rintro ⟨hh, off, ho, hm⟩
    have hi : i < c.n := lt_of_lt_of_le hm.2 (hrg off ho).1
    exact ⟨hh, hi, ((hrg off ho).2 ⟨i, hi⟩ |>.mp hm).2.1⟩
  · intro hi hh hb hadj
    refine ⟨hh, ?_⟩
    let off : Fin (k + 2) → ℤ := fun d =>
      if k ≠ 0 ∧ d = Fin.last _ then 0 else c.cell (c.perm ⟨i, hi⟩) d - (cen s).2 d
    have ho : off ∈ cuOffsets (k + 2) 1 := by
      rw [mem_cuOffsets]
      constructor
      · intro d
        simp only [off]
        split
        · omega
        · exact abs_le.mp (hadj d)
      · intro hk
        exact if_pos ⟨hk, rfl⟩
    have hsame : ∀ d, ¬ (k ≠ 0 ∧ d = Fin.last _) → (cen s).2 d + off d = c.cell (c.perm ⟨i, hi⟩) d := by
      intro d h
      simp only [off]
      rw [if_neg h]
      ring
    refine ⟨off, ho, ?_⟩
    rw [show i = (⟨i, hi⟩ : Fin c.n).val from rfl, (hrg off ho).2 ⟨i, hi⟩]
    have hcr := hc (c.perm ⟨i, hi⟩)
    refine ⟨?_, hb, ?_, ?_, ?_⟩
    · intro d
      by_cases h : k ≠ 0 ∧ d = Fin.last _
      · have : off d = 0 := if_pos h
        rw [this, add_zero]
        exact hcen s d
      · rw [hsame d h]
        exact hcr d
    · rw [hsame 0 (by
        rintro ⟨_, h⟩
        have := congrArg Fin.val h
        rw [Fin.val_last, Fin.val_zero] at this
        omega)]
    · rw [hsame 1 (by
        rintro ⟨h0, h⟩
        have := congrArg Fin.val h
        rw [Fin.val_last, Fin.val_one] at this
        omega)]
    · intro hk
      rw [key, hb, key_diff_last]
      · have h0 : off (Fin.last _) = 0 := if_pos ⟨hk, rfl⟩
        rw [h0, add_zero]
        exact hadj _
      · intro d
        rw [hsame d.castSucc (by
          rintro ⟨_, h⟩
          exact absurd h (Fin.castSucc_lt_last d).ne)]

end CellCloud

/-! ### rounding -/

theorem Rnd.refl {u : ℝ} (hu : 0 ≤ u) (x : ℝ) : Rnd u x x := by
  unfold Rnd
  rw [sub_self, abs_zero]
  positivity

/-- Rounding to nearest with 24 bits is covered. -/
theorem round24_rnd (x : ℝ) : Rnd (1 / 2 ^ 24) x (round24 x) := by
  unfold Rnd round24
  by_cases hx : x = 0
  · subst hx; simp
  have hpos : 0 < |x| := abs_pos.mpr hx
  set e := Int.log 2 |x| with he
  have h2 : (0 : ℝ) < (2 : ℝ) ^ (e - 23) := by positivity
  have hle : (2 : ℝ) ^ e ≤ |x| := by
    have := Int.zpow_log_le_self (b := 2) (r := |x|) (by norm_num) hpos
    simpa using this
  have hr := abs_sub_round (x * (2 : ℝ) ^ (23 - e))
  have hinv : (2 : ℝ) ^ (23 - e) * (2 : ℝ) ^ (e - 23) = 1 := by
    rw [← zpow_add₀ (by norm_num)]
    simp
  have e1 : (round (x * (2 : ℝ) ^ (23 - e)) : ℝ) * (2 : ℝ) ^ (e - 23) - x =
      -((x * (2 : ℝ) ^ (23 - e) - round (x * (2 : ℝ) ^ (23 - e))) * (2 : ℝ) ^ (e - 23)) := by
    rw [sub_mul, mul_assoc x, hinv]; ring
  rw [e1, abs_neg, abs_mul, abs_of_pos h2]
  calc |x * (2 : ℝ) ^ (23 - e) - round (x * (2 : ℝ) ^ (23 - e))| * (2 : ℝ) ^ (e - 23)
      ≤ 1 / 2 * (2 : ℝ) ^ (e - 23) := mul_le_mul_of_nonneg_right hr h2.le
    _ = 1 / 2 ^ 24 * (2 : ℝ) ^ e := by
        rw [zpow_sub₀ (by norm_num)]
        norm_num
        ring
    _ ≤ 1 / 2 ^ 24 * |x| := mul_le_mul_of_nonneg_left hle (by norm_num)

theorem Rnd.abs_bounds {u x y : ℝ} (h : Rnd u x y) : (1 - u) * |x| ≤ |y| ∧ |y| ≤ (1 + u) * |x| := by
  unfold Rnd at h
  have h1 := abs_sub_abs_le_abs_sub y x
  have h2 := abs_sub_abs_le_abs_sub x y
  rw [abs_sub_comm x y] at h2
  constructor <;> linarith

theorem Rnd.bounds {u x y : ℝ} (h : Rnd u x y) (hx : 0 ≤ x) : (1 - u) * x ≤ y ∧ y ≤ (1 + u) * x := by
  unfold Rnd at h
  rw [abs_of_nonneg hx, abs_le] at h
  constructor <;> linarith [h.1, h.2]

/-- The value whose integer part is the cell differs from the exact one by at most `6 u M`. -/
theorem FpCell.near {D : ℕ} {u M : ℝ} (hu : 0 ≤ u) (hu8 : u ≤ 1 / 8) {lo cs : Fin D → ℝ} {nc : Fin D → ℤ} {p : Fin D → ℝ}
    {cell : Fin D → ℤ} (h : FpCell u lo cs nc p cell) (hcs : ∀ d, 0 < cs d) (d : Fin D) (hp : |p d| ≤ M * cs d)
    (hlo : |lo d| ≤ M * cs d) :
    ∃ q, |q - (p d - lo d) / cs d| ≤ 6 * u * M ∧ cell d = min (max ⌊q⌋ 0) (nc d - 1) := by
  obtain ⟨inv, smin, a, q, h1, h2, h3, h4, h5⟩ := h d
  refine ⟨q, ?_, h5⟩
  have hc := hcs d
  have hX : |p d / cs d| ≤ M := by rw [abs_div, abs_of_pos hc, div_le_iff₀ hc]; exact hp
  have hY : |lo d / cs d| ≤ M := by rw [abs_div, abs_of_pos hc, div_le_iff₀ hc]; exact hlo
  have hM : 0 ≤ M := (abs_nonneg _).trans hX
  have e1 : |p d * inv - p d / cs d| ≤ u * M := by
    have : p d * inv - p d / cs d = p d * (inv - 1 / cs d) := by ring
    rw [this, abs_mul]
    have h1' : |inv - 1 / cs d| ≤ u * (1 / cs d) := by
      have := h1
      unfold Rnd at this
      rwa [abs_of_pos (by positivity : (0 : ℝ) < 1 / cs d)] at this
    calc |p d| * |inv - 1 / cs d| ≤ (M * cs d) * (u * (1 / cs d)) := mul_le_mul hp h1' (abs_nonneg _) (by positivity)
      _ = u * M := by field_simp
  have e2 : |p d * inv| ≤ M + u * M := by
    have := abs_sub_abs_le_abs_sub (p d * inv) (p d / cs d)
    linarith
  have e3 : |a - p d * inv| ≤ u * (M + u * M) := h3.trans (mul_le_mul_of_nonneg_left e2 hu)
  have e4 : |smin - lo d / cs d| ≤ u * M := h2.trans (mul_le_mul_of_nonneg_left hY hu)
  have e5 : |a - smin| ≤ 2 * M + (3 * u * M + u * (u * M)) := by
    have : a - smin = (a - p d * inv) + (p d * inv - p d / cs d) + p d / cs d - lo d / cs d - (smin - lo d / cs d) := by ring
    rw [this]
    rw [abs_le] at *
    constructor <;> nlinarith [e3.1, e3.2, e1.1, e1.2, e4.1, e4.2, hX.1, hX.2, hY.1, hY.2]
  have e6 : |q - (a - smin)| ≤ u * (2 * M + (3 * u * M + u * (u * M))) := h4.trans (mul_le_mul_of_nonneg_left e5 hu)
  have e7 : u * (u * M) ≤ 1 / 8 * (u * M) := mul_le_mul_of_nonneg_right hu8 (by positivity)
  have e8 : u * (u * (u * M)) ≤ 1 / 64 * (u * M) := by
    have := mul_le_mul_of_nonneg_left e7 hu
    nlinarith [mul_nonneg hu hM]
  have : q - (p d - lo d) / cs d =
      (q - (a - smin)) + (a - p d * inv) + (p d * inv - p d / cs d) - (smin - lo d / cs d) := by
    rw [sub_div]; ring
  rw [this]
  have hum : 0 ≤ u * M := by positivity
  rw [abs_le] at *
  constructor <;> nlinarith [e3.1, e3.2, e1.1, e1.2, e4.1, e4.2, e6.1, e6.2]

/-- Close points lie in adjacent cells. -/
theorem FpCell.adjacent {D : ℕ} {u M : ℝ} (hu : 0 ≤ u) (hu8 : u ≤ 1 / 8) {lo cs : Fin D → ℝ} {nc : Fin D → ℤ}
    (hn : ∀ d, 0 < nc d) {p p' : Fin D → ℝ} {cell cell' : Fin D → ℤ} (h : FpCell u lo cs nc p cell)
    (h' : FpCell u lo cs nc p' cell') (hcs : ∀ d, 0 < cs d) (d : Fin D) (hp : |p d| ≤ M * cs d) (hp' : |p' d| ≤ M * cs d)
    (hlo : |lo d| ≤ M * cs d) (hd : |p' d - p d| / cs d + 12 * u * M ≤ 1) : |cell d - cell' d| ≤ 1 := by
  obtain ⟨q, h1, h2⟩ := h.near hu hu8 hcs d hp hlo
  obtain ⟨q', h1', h2'⟩ := h'.near hu hu8 hcs d hp' hlo
  have hc := hcs d
  have e : (p' d - lo d) / cs d - (p d - lo d) / cs d = (p' d - p d) / cs d := by ring
  have e' : |(p' d - p d) / cs d| = |p' d - p d| / cs d := by rw [abs_div, abs_of_pos hc]
  have hq : |q' - q| ≤ 1 := by
    rw [← e'] at hd
    have : q' - q = (q' - (p' d - lo d) / cs d) + (p' d - p d) / cs d - (q - (p d - lo d) / cs d) := by rw [← e]; ring
    rw [this]
    have b := abs_le.mp h1
    have b' := abs_le.mp h1'
    have b2 := le_abs_self ((p' d - p d) / cs d)
    have b3 := neg_abs_le ((p' d - p d) / cs d)
    rw [abs_le]
    constructor <;> linarith [b.1, b.2, b'.1, b'.2]
  have f1 : ⌊q'⌋ ≤ ⌊q⌋ + 1 := by
    rw [← Int.floor_add_one]
    exact Int.floor_le_floor (by linarith [(abs_le.mp hq).2])
  have f2 : ⌊q⌋ ≤ ⌊q'⌋ + 1 := by
    rw [← Int.floor_add_one]
    exact Int.floor_le_floor (by linarith [(abs_le.mp hq).1])
  have := hn d
  rw [h2, h2', abs_le]
  omega

theorem FpLength.bounds {D : ℕ} {u : ℝ} (hu : 0 ≤ u) (hu1 : u ≤ 1) {x : Fin D → ℝ} {t : ℝ} (h : FpLength u x t) :
    0 ≤ t ∧ (1 - u) ^ (D + 3) * ∑ d, x d ^ 2 ≤ t ^ 2 ∧ t ^ 2 ≤ (1 + u) ^ (D + 3) * ∑ d, x d ^ 2 := by
  obtain ⟨s, h0, h1, h2⟩ := h
  let g : ℕ → ℝ := fun j => if h : j < D then x ⟨j, h⟩ ^ 2 else 0
  have hg : ∀ j, 0 ≤ g j := by intro j; simp only [g]; split <;> positivity
  have hl : 0 ≤ 1 - u := by linarith
  have key : ∀ j ≤ D, 0 ≤ s j ∧ (1 - u) ^ (j + 1) * ∑ d ∈ Finset.range j, g d ≤ s j ∧
      s j ≤ (1 + u) ^ (j + 1) * ∑ d ∈ Finset.range j, g d := by
    intro j
    induction j with
    | zero => intro _; simp [h0]
    | succ j ih =>
      intro hj
      obtain ⟨i0, i1, i2⟩ := ih (by omega)
      obtain ⟨m, m1, m2⟩ := h1 ⟨j, by omega⟩
      dsimp only at m2
      have hgj : g j = x ⟨j, by omega⟩ * x ⟨j, by omega⟩ := by
        simp only [g]; rw [dif_pos (by omega : j < D)]; ring
      have hxx : 0 ≤ x ⟨j, by omega⟩ * x ⟨j, by omega⟩ := mul_self_nonneg _
      obtain ⟨b1, b2⟩ := m1.bounds hxx
      rw [← hgj] at b1 b2
      have hm : 0 ≤ m := le_trans (mul_nonneg hl (hg j)) b1
      obtain ⟨c1, c2⟩ := m2.bounds (add_nonneg i0 hm)
      have hp1 : (1 - u) ^ (j + 1) ≤ 1 - u := by
        calc (1 - u) ^ (j + 1) ≤ (1 - u) ^ 1 := pow_le_pow_of_le_one hl (by linarith) (by omega)
          _ = 1 - u := pow_one _
      have hp2 : 1 + u ≤ (1 + u) ^ (j + 1) := by
        calc 1 + u = (1 + u) ^ 1 := (pow_one _).symm
          _ ≤ (1 + u) ^ (j + 1) := pow_le_pow_right₀ (by linarith) (by omega)
      refine ⟨le_trans (mul_nonneg hl (add_nonneg i0 hm)) c1, ?_, ?_⟩
      · rw [Finset.sum_range_succ]
        calc (1 - u) ^ (j + 1 + 1) * (∑ d ∈ Finset.range j, g d + g j)
            = (1 - u) * ((1 - u) ^ (j + 1) * ∑ d ∈ Finset.range j, g d + (1 - u) ^ (j + 1) * g j) := by ring
          _ ≤ (1 - u) * (s j + m) := mul_le_mul_of_nonneg_left
              (add_le_add i1 ((mul_le_mul_of_nonneg_right hp1 (hg j)).trans b1)) hl
          _ ≤ _ := c1
      · rw [Finset.sum_range_succ]
        calc s (j + 1) ≤ (1 + u) * (s j + m) := c2
          _ ≤ (1 + u) * ((1 + u) ^ (j + 1) * ∑ d ∈ Finset.range j, g d + (1 + u) ^ (j + 1) * g j) :=
              mul_le_mul_of_nonneg_left (add_le_add i2 (b2.trans (mul_le_mul_of_nonneg_right hp2 (hg j)))) (by linarith)
          _ = _ := by ring
  obtain ⟨k0, k1, k2⟩ := key D le_rfl
  have hsum : ∑ d ∈ Finset.range D, g d = ∑ d, x d ^ 2 := by
    rw [Finset.sum_range]
    exact Finset.sum_congr rfl (fun d _ => by simp only [g]; rw [dif_pos d.isLt])
  rw [hsum] at k1 k2
  obtain ⟨t1, t2⟩ := h2.bounds (Real.sqrt_nonneg _)
  have ht : 0 ≤ t := le_trans (mul_nonneg hl (Real.sqrt_nonneg _)) t1
  refine ⟨ht, ?_, ?_⟩
  · calc (1 - u) ^ (D + 3) * ∑ d, x d ^ 2 = (1 - u) ^ 2 * ((1 - u) ^ (D + 1) * ∑ d, x d ^ 2) := by ring
      _ ≤ (1 - u) ^ 2 * s D := mul_le_mul_of_nonneg_left k1 (by positivity)
      _ = ((1 - u) * √(s D)) ^ 2 := by rw [mul_pow, Real.sq_sqrt k0]
      _ ≤ t ^ 2 := pow_le_pow_left₀ (mul_nonneg hl (Real.sqrt_nonneg _)) t1 2
  · calc t ^ 2 ≤ ((1 + u) * √(s D)) ^ 2 := pow_le_pow_left₀ ht t2 2
      _ = (1 + u) ^ 2 * s D := by rw [mul_pow, Real.sq_sqrt k0]
      _ ≤ (1 + u) ^ 2 * ((1 + u) ^ (D + 1) * ∑ d, x d ^ 2) := mul_le_mul_of_nonneg_left k2 (by positivity)
      _ = _ := by ring

/-- The outcome of the test is decided by the exact distance up to `D + 9` roundings. -/
theorem FpTest.bounds {D : ℕ} {u : ℝ} (hu : 0 ≤ u) (hu1 : u ≤ 1) {p q rad : Fin D → ℝ} {h : Bool} (ht : FpTest u p q rad h) :
    (h = true → (1 - u) ^ (D + 9) * ∑ d, ((p d - q d) / rad d) ^ 2 < 1) ∧
    ((1 + u) ^ (D + 9) * ∑ d, ((p d - q d) / rad d) ^ 2 < 1 → h = true) := by
  obtain ⟨x, t, h1, h2, h3⟩ := ht
  obtain ⟨t0, t1, t2⟩ := h2.bounds hu hu1
  have hl : 0 ≤ 1 - u := by linarith
  have hx : ∀ d, (1 - u) ^ 6 * ((p d - q d) / rad d) ^ 2 ≤ x d ^ 2 ∧ x d ^ 2 ≤ (1 + u) ^ 6 * ((p d - q d) / rad d) ^ 2 := by
    intro d
    obtain ⟨inv, dif, r1, r2, r3⟩ := h1 d
    obtain ⟨a1, a2⟩ := r1.abs_bounds
    obtain ⟨b1, b2⟩ := r2.abs_bounds
    obtain ⟨c1, c2⟩ := r3.abs_bounds
    rw [abs_mul] at c1 c2
    have e : |(p d - q d) / rad d| = |p d - q d| * |1 / rad d| := by rw [← abs_mul]; congr 1; ring
    have lo : (1 - u) ^ 3 * |(p d - q d) / rad d| ≤ |x d| := by
      rw [e]
      calc (1 - u) ^ 3 * (|p d - q d| * |1 / rad d|) = (1 - u) * (((1 - u) * |p d - q d|) * ((1 - u) * |1 / rad d|)) := by ring
        _ ≤ (1 - u) * (|dif| * |inv|) := mul_le_mul_of_nonneg_left
            (mul_le_mul b1 a1 (mul_nonneg hl (abs_nonneg _)) (abs_nonneg _)) hl
        _ ≤ _ := c1
    have hi : |x d| ≤ (1 + u) ^ 3 * |(p d - q d) / rad d| := by
      rw [e]
      calc |x d| ≤ (1 + u) * (|dif| * |inv|) := c2
        _ ≤ (1 + u) * (((1 + u) * |p d - q d|) * ((1 + u) * |1 / rad d|)) := mul_le_mul_of_nonneg_left
            (mul_le_mul b2 a2 (abs_nonneg _) (by positivity)) (by positivity)
        _ = _ := by ring
    constructor
    · calc (1 - u) ^ 6 * ((p d - q d) / rad d) ^ 2 = ((1 - u) ^ 3 * |(p d - q d) / rad d|) ^ 2 := by
            rw [mul_pow, sq_abs]; ring
        _ ≤ |x d| ^ 2 := pow_le_pow_left₀ (by positivity) lo 2
        _ = x d ^ 2 := sq_abs _
    · calc x d ^ 2 = |x d| ^ 2 := (sq_abs _).symm
        _ ≤ ((1 + u) ^ 3 * |(p d - q d) / rad d|) ^ 2 := pow_le_pow_left₀ (abs_nonneg _) hi 2
        _ = _ := by rw [mul_pow, sq_abs]; ring
  have s1 : (1 - u) ^ 6 * ∑ d, ((p d - q d) / rad d) ^ 2 ≤ ∑ d, x d ^ 2 := by
    rw [Finset.mul_sum]; exact Finset.sum_le_sum (fun d _ => (hx d).1)
  have s2 : ∑ d, x d ^ 2 ≤ (1 + u) ^ 6 * ∑ d, ((p d - q d) / rad d) ^ 2 := by
    rw [Finset.mul_sum]; exact Finset.sum_le_sum (fun d _ => (hx d).2)
  constructor
  · intro hh
    rw [h3, decide_eq_true_eq] at hh
    calc (1 - u) ^ (D + 9) * ∑ d, ((p d - q d) / rad d) ^ 2 =
        (1 - u) ^ (D + 3) * ((1 - u) ^ 6 * ∑ d, ((p d - q d) / rad d) ^ 2) := by ring
      _ ≤ (1 - u) ^ (D + 3) * ∑ d, x d ^ 2 := mul_le_mul_of_nonneg_left s1 (by positivity)
      _ ≤ t ^ 2 := t1
      _ < 1 := by nlinarith
  · intro hh
    rw [h3, decide_eq_true_eq]
    have : t ^ 2 < 1 := by
      calc t ^ 2 ≤ (1 + u) ^ (D + 3) * ∑ d, x d ^ 2 := t2
        _ ≤ (1 + u) ^ (D + 3) * ((1 + u) ^ 6 * ∑ d, ((p d - q d) / rad d) ^ 2) :=
            mul_le_mul_of_nonneg_left s2 (by positivity)
        _ = (1 + u) ^ (D + 9) * ∑ d, ((p d - q d) / rad d) ^ 2 := by ring
        _ < 1 := hh
    nlinarith

theorem FpCell.range {D : ℕ} {u : ℝ} {lo cs : Fin D → ℝ} {nc : Fin D → ℤ} (hn : ∀ d, 0 < nc d) {p : Fin D → ℝ}
    {cell : Fin D → ℤ} (h : FpCell u lo cs nc p cell) (d : Fin D) : 0 ≤ cell d ∧ cell d < nc d := by
  obtain ⟨_, _, _, q, _, _, _, _, h5⟩ := h d
  have := hn d
  omega

/-! ### C125 -/

/-- Scaled distance. -/
noncomputable def scaledDist {D : ℕ} (rad p q : Fin D → ℝ) : ℝ := √(∑ d, ((p d - q d) / rad d) ^ 2)

/-- **C125.** Whatever the rounding errors, schedules and launch sizes (within the limit of the scan): the slot range of a
centre contains only points of its batch element at scaled distance below `1 + (D + 9) u`, and it contains all
points of its batch element at scaled distance below `1 - (D + 9 + 12 M) u`, where `M` bounds the coordinates in units of
the cell size. -/
theorem C125_find_neighbors_partial {k : ℕ} (f : FpSearch (k + 2)) (u M : ℝ) (hu : 0 ≤ u) (hsmall : u * (k + 11) ≤ 1 / 2)
    (hok : f.Ok u) (hM : 0 ≤ M) (hr : ∀ d, 0 < f.rad d) (hle : ∀ d, f.rad d ≤ f.cs d)
    (hlo : ∀ i d, |f.lo (f.c.batch i) d| ≤ M * f.cs d) (hpts : ∀ (i : Fin f.c.n) d, |f.pts i d| ≤ M * f.cs d) (hcen : ∀ s d, |f.cen s d| ≤ M * f.cs d)
    (tab : ℤ → ℕ × ℕ) (ht : f.c.Built tab) (fuel : ℕ) (hf : Nat.clog 2 f.c.n + 1 ≤ fuel)
    (S Wc Ws Wn : ℕ) (hWc : 0 < Wc) (hWs : 0 < Ws) (hWn : 0 < Wn) (hS : 0 < S) (hone : S ≤ 512 + Ws * 64)
    (total : ℕ) (res : StoreMem) (h : FindRun S offsetsPerBlock Wc Ws Wn
      ((offsetBlocks (k + 2) 1).map (f.c.ranges fuel tab (fun s => (f.cenBatch s, f.cenCell s)))) f.hit total res)
    (s : ℕ) (hs : s < S) :
    let lo := if s = 0 then 0 else res.cnt (s - 1)
    lo ≤ res.cnt s ∧ res.cnt s ≤ total ∧ (s + 1 = S → res.cnt s = total) ∧
    (∀ j, lo ≤ j → j < res.cnt s → (res.out j).2 = s ∧ ∃ hi : (res.out j).1 < f.c.n,
      f.c.batch (f.c.perm ⟨_, hi⟩) = f.cenBatch s ∧
      scaledDist f.rad (f.cen s) (f.pts (f.c.perm ⟨_, hi⟩)) < 1 + (k + 11) * u) ∧
    (∀ i : Fin f.c.n, f.c.batch (f.c.perm i) = f.cenBatch s →
      scaledDist f.rad (f.cen s) (f.pts (f.c.perm i)) < 1 - (k + 11 + 12 * M) * u →
      ∃ j, lo ≤ j ∧ j < res.cnt s ∧ res.out j = (i.val, s)) := by
  intro lo
  have hu8 : u ≤ 1 / 8 := by nlinarith [mul_nonneg hu (Nat.cast_nonneg k : (0 : ℝ) ≤ k)]
  have hcs : ∀ d, 0 < f.cs d := fun d => lt_of_lt_of_le (hr d) (hle d)
  obtain ⟨h1, h2, h3, h4⟩ := findRun_spec S offsetsPerBlock Wc Ws Wn hWc hWs hWn (by decide) hS hone _ _
    total res h
  obtain ⟨hA, hB⟩ : _ ∧ _ := ⟨fun i => (CellCloud.examined (c := f.c) (fun i => (hok.cells i).range hok.nc) hok.nc tab ht
    (fun s => (f.cenBatch s, f.cenCell s)) (fun s => (hok.cenCells s).range hok.nc) fuel hf f.hit s i).1,
    fun i => (CellCloud.examined (c := f.c) (fun i => (hok.cells i).range hok.nc) hok.nc tab ht
    (fun s => (f.cenBatch s, f.cenCell s)) (fun s => (hok.cenCells s).range hok.nc) fuel hf f.hit s i).2⟩
  generalize hl : allFinds offsetsPerBlock ((offsetBlocks (k + 2) 1).map
    (f.c.ranges fuel tab (fun s => (f.cenBatch s, f.cenCell s)))) f.hit = L at *
  have hlo' : lo = ∑ x ∈ Finset.range s, (L x).length := by
    simp only [lo]
    split
    · next e => subst e; simp
    · next e => rw [h2 (s - 1) (by omega), show s - 1 + 1 = s by omega]
  have hhi : res.cnt s = lo + (L s).length := by rw [h2 s hs, hlo', Finset.sum_range_succ]
  have hp := h4 s hs
  rw [← hlo'] at hp
  have hcast : ((k + 2 : ℕ) : ℝ) = k + 2 := by push_cast; ring
  refine ⟨by omega, ?_, ?_, ?_, ?_⟩
  · rw [h2 s hs, h1]
    exact Finset.sum_le_sum_of_subset (Finset.range_subset_range.mpr (by omega))
  · intro e; rw [h2 s hs, h1, e]
  · intro j hj1 hj2
    have hm : res.out j ∈ (L s).map (fun p => (p, s)) := by
      rw [← hp.mem_iff, List.mem_map]
      exact ⟨j, by rw [List.mem_range'_1]; omega, rfl⟩
    obtain ⟨i, hi, e⟩ := List.mem_map.mp hm
    rw [← e]
    refine ⟨rfl, ?_⟩
    obtain ⟨hh, hin, hb⟩ := hA i hi
    refine ⟨hin, hb, ?_⟩
    have ht := ((hok.hits s ⟨i, hin⟩).bounds hu (by linarith)).1 hh
    dsimp only
    set T := ∑ d, ((f.cen s d - f.pts (f.c.perm ⟨i, hin⟩) d) / f.rad d) ^ 2 with hT
    have hT0 : 0 ≤ T := Finset.sum_nonneg (fun d _ => sq_nonneg _)
    have hB := one_add_mul_le_pow (a := -u) (by linarith) (k + 2 + 9)
    have hx : 1 - (k + 11) * u ≤ (1 - u) ^ (k + 2 + 9) := by
      calc 1 - (k + 11) * u = 1 + ((k + 2 + 9 : ℕ) : ℝ) * -u := by push_cast; ring
        _ ≤ (1 + -u) ^ (k + 2 + 9) := hB
        _ = _ := by ring
    have h5 : (1 - (k + 11) * u) * T < 1 := lt_of_le_of_lt (mul_le_mul_of_nonneg_right hx hT0) ht
    unfold scaledDist
    rw [← hT]
    set y := ((k : ℝ) + 11) * u with hy
    have hy0 : 0 ≤ y := by positivity
    have hy1 : y ≤ 1 / 2 := by rw [hy, mul_comm]; exact hsmall
    rw [Real.sqrt_lt' (by linarith)]
    by_contra hge
    rw [not_lt] at hge
    have : (1 - y) * (1 + y) ^ 2 ≤ (1 - y) * T := mul_le_mul_of_nonneg_left hge (by linarith)
    nlinarith [mul_nonneg hy0 hy0, mul_nonneg hy0 (by linarith : (0 : ℝ) ≤ 1 / 2 - y),
      mul_nonneg (mul_nonneg hy0 hy0) (by linarith : (0 : ℝ) ≤ 1 / 2 - y)]
  · intro i hb hd
    set T := ∑ d, ((f.cen s d - f.pts (f.c.perm i) d) / f.rad d) ^ 2 with hT
    have hT0 : 0 ≤ T := Finset.sum_nonneg (fun d _ => sq_nonneg _)
    unfold scaledDist at hd
    rw [← hT] at hd
    have hk0 : (0 : ℝ) ≤ k := Nat.cast_nonneg k
    have humM : 0 ≤ u * M := by positivity
    set y := ((k : ℝ) + 11) * u with hy
    have hy0 : 0 ≤ y := by positivity
    have hdy : √T < 1 - y := by
      have : ((k : ℝ) + 11 + 12 * M) * u = y + 12 * (u * M) := by rw [hy]; ring
      rw [this] at hd
      linarith
    have hdM : √T + 12 * u * M ≤ 1 := by
      have : ((k : ℝ) + 11 + 12 * M) * u = y + 12 * (u * M) := by rw [hy]; ring
      rw [this] at hd
      linarith
    have hs0 := Real.sqrt_nonneg T
    -- the test
    have hhit : f.hit s i = true := by
      refine ((hok.hits s i).bounds hu (by linarith)).2 ?_
      rw [← hT]
      have hlt : T < (1 - y) ^ 2 := (Real.sqrt_lt' (by linarith)).mp hdy
      have e1 : (1 + u) ^ (k + 2 + 9) ≤ Real.exp y := by
        calc (1 + u) ^ (k + 2 + 9) ≤ (Real.exp u) ^ (k + 2 + 9) :=
              pow_le_pow_left₀ (by linarith) (by linarith [Real.add_one_le_exp u]) _
          _ = Real.exp y := by rw [← Real.exp_nat_mul]; congr 1; push_cast; rw [hy]; ring
      have e2 : (1 - y) ^ 2 ≤ Real.exp (-y) ^ 2 :=
        pow_le_pow_left₀ (by linarith) (by linarith [Real.add_one_le_exp (-y)]) 2
      calc (1 + u) ^ (k + 2 + 9) * T ≤ Real.exp y * T := mul_le_mul_of_nonneg_right e1 hT0
        _ < Real.exp y * (1 - y) ^ 2 := mul_lt_mul_of_pos_left hlt (Real.exp_pos _)
        _ ≤ Real.exp y * Real.exp (-y) ^ 2 := mul_le_mul_of_nonneg_left e2 (Real.exp_pos _).le
        _ = Real.exp (-y) := by rw [sq, ← mul_assoc, ← Real.exp_add]; simp
        _ ≤ 1 := by rw [Real.exp_le_one_iff]; linarith
    -- the cells
    have hadj : ∀ d, |f.c.cell (f.c.perm i) d - f.cenCell s d| ≤ 1 := by
      intro d
      have hcell := hok.cells (f.c.perm i)
      have hl' := hlo (f.c.perm i) d
      rw [hb] at hcell hl'
      refine hcell.adjacent hu hu8 hok.nc (hok.cenCells s) hcs d (hpts _ d) (hcen s d) hl' ?_
      refine le_trans (add_le_add_left ?_ _) hdM
      have h5 : ((f.cen s d - f.pts (f.c.perm i) d) / f.rad d) ^ 2 ≤ T :=
        Finset.single_le_sum (f := fun d => ((f.cen s d - f.pts (f.c.perm i) d) / f.rad d) ^ 2)
          (fun _ _ => sq_nonneg _) (Finset.mem_univ d)
      have h6 : |(f.cen s d - f.pts (f.c.perm i) d) / f.rad d| ≤ √T := Real.abs_le_sqrt h5
      rw [abs_div, abs_of_pos (hr d)] at h6
      exact (div_le_div_of_nonneg_left (abs_nonneg _) (hr d) (hle d)).trans h6
    have hm := hB i i.isLt hhit hb hadj
    have hm2 : (i.val, s) ∈ (List.range' lo (L s).length).map res.out := by
      rw [hp.mem_iff, List.mem_map]
      exact ⟨_, hm, rfl⟩
    obtain ⟨j, hj, e⟩ := List.mem_map.mp hm2
    rw [List.mem_range'_1] at hj
    exact ⟨j, hj.1, by omega, e⟩

/-- For all inputs there is such a search and a run, for example with every operation rounded to nearest with 24
bits. -/
theorem C125_exists {k : ℕ} (n : ℕ) (batch : Fin n → ℕ) (pts : ℕ → Fin (k + 2) → ℝ) (nc : Fin (k + 2) → ℤ)
    (hnc : ∀ d, 0 < nc d) (cenBatch : ℕ → ℕ) (cen : ℕ → Fin (k + 2) → ℝ) (lo : ℕ → Fin (k + 2) → ℝ)
    (cs rad : Fin (k + 2) → ℝ) (S : ℕ) (hS : 0 < S) (Wc Ws Wn : ℕ) (hWs : 0 < Ws) (hone : S ≤ 512 + Ws * 64) (fuel : ℕ) :
    ∃ (cell : Fin n → Fin (k + 2) → ℤ) (cenCell : ℕ → Fin (k + 2) → ℤ) (hit : ℕ → ℕ → Bool) (tab : ℤ → ℕ × ℕ)
      (total : ℕ) (res : StoreMem),
      let f : FpSearch (k + 2) := ⟨pts, ⟨n, batch, cell, nc⟩, cenBatch, cen, cenCell, lo, cs, rad, hit⟩
      f.Ok (1 / 2 ^ 24) ∧ f.c.Built tab ∧ FindRun S offsetsPerBlock Wc Ws Wn
        ((offsetBlocks (k + 2) 1).map (f.c.ranges fuel tab (fun s => (f.cenBatch s, f.cenCell s)))) f.hit total res := by
  have hcell : ∀ b p, ∃ cell, FpCell (1 / 2 ^ 24) (lo b) cs nc p cell := by
    intro b p
    exact ⟨_, fun d => ⟨_, _, _, _, round24_rnd _, round24_rnd _, round24_rnd _, round24_rnd _, rfl⟩⟩
  choose cellOf hcellOf using hcell
  have hlen : ∀ x : Fin (k + 2) → ℝ, ∃ t, FpLength (1 / 2 ^ 24) x t := by
    intro x
    let s : ℕ → ℝ := fun j => Nat.rec 0 (fun d acc =>
      round24 (acc + round24 (if h : d < k + 2 then x ⟨d, h⟩ * x ⟨d, h⟩ else 0))) j
    refine ⟨round24 √(s (k + 2)), s, rfl, fun d => ⟨round24 (x d * x d), round24_rnd _, ?_⟩, round24_rnd _⟩
    have : s (d + 1) = round24 (s d + round24 (x d * x d)) := by
      show round24 (s d + round24 (if h : d.val < k + 2 then x ⟨d, h⟩ * x ⟨d, h⟩ else 0)) = _
      rw [dif_pos d.isLt]
    rw [this]
    exact round24_rnd _
  have htest : ∀ p q, ∃ h, FpTest (1 / 2 ^ 24) p q rad h := by
    intro p q
    obtain ⟨t, ht⟩ := hlen (fun d => round24 (round24 (p d - q d) * round24 (1 / rad d)))
    exact ⟨_, _, t, fun d => ⟨_, _, round24_rnd _, round24_rnd _, round24_rnd _⟩, ht, rfl⟩
  choose testOf htestOf using htest
  let c : CellCloud (k + 2) := ⟨n, batch, fun i => cellOf (batch i) (pts i), nc⟩
  let hit : ℕ → ℕ → Bool := fun s i => if h : i < n then testOf (cen s) (pts (c.perm ⟨i, h⟩)) else false
  obtain ⟨tr, htr⟩ : ∃ tr, Interleave (buildDsThreads c.nc c.sortedKeys c.n 1) tr := ⟨_, Interleave.exists_seq _⟩
  obtain ⟨total, res, hrun⟩ := C58_run_exists S offsetsPerBlock Wc Ws Wn hWs hS hone
    ((offsetBlocks (k + 2) 1).map (c.ranges fuel (fun s => buildDsResult tr s)
      (fun s => (cenBatch s, cellOf (cenBatch s) (cen s))))) hit
  refine ⟨c.cell, fun s => cellOf (cenBatch s) (cen s), hit, fun s => buildDsResult tr s, total, res, ⟨hnc, ?_, ?_, ?_⟩,
    ⟨1, tr, one_pos, htr, rfl⟩, hrun⟩
  · intro i; exact hcellOf _ _
  · intro s; exact hcellOf _ _
  · intro s i
    have : hit s i = testOf (cen s) (pts (c.perm i)) := dif_pos i.isLt
    show FpTest _ _ _ _ (hit s i)
    rw [this]
    exact htestOf _ _

/-- A case: two points at distance 3/4 and a centre at the first, cell size and radius 1, rounding to 24 bits; both points
are found in every run. -/
example (cell : Fin 2 → Fin 2 → ℤ) (cenCell : ℕ → Fin 2 → ℤ) (hit : ℕ → ℕ → Bool) (tab : ℤ → ℕ × ℕ) (total : ℕ)
    (res : StoreMem) (f : FpSearch 2)
    (hf : f = ⟨fun i => ![if i = 0 then 0 else 3 / 4, 1], ⟨2, fun _ => 0, cell, fun _ => 5⟩, fun _ => 0, fun _ => ![0, 1], cenCell,
      fun _ => ![0, 1], fun _ => 1, fun _ => 1, hit⟩)
    (hok : f.Ok (1 / 2 ^ 24)) (ht : f.c.Built tab) (h : FindRun 1 offsetsPerBlock 1 1 1
        ((offsetBlocks 2 1).map (f.c.ranges 5 tab (fun s => (f.cenBatch s, f.cenCell s)))) f.hit total res) :
    ∀ i : Fin f.c.n, ∃ j, j < total ∧ res.out j = (i.val, 0) := by
  have hb : ∀ i : Fin f.c.n, f.c.batch i = 0 := by subst hf; intro i; rfl
  have hcb : f.cenBatch 0 = 0 := by subst hf; rfl
  have key := C125_find_neighbors_partial (k := 0) f (1 / 2 ^ 24) 1 (by norm_num) (by norm_num) hok (by norm_num)
    (by subst hf; intro d; norm_num) (by subst hf; intro d; norm_num)
    (by subst hf; intro i d; fin_cases d <;> norm_num)
    (by subst hf; intro i d; fin_cases d <;> simp; split_ifs <;> norm_num [abs_of_pos])
    (by subst hf; intro s d; fin_cases d <;> norm_num)
    tab ht 5 (by subst hf; show Nat.clog 2 2 + 1 ≤ 5; decide) 1 1 1 1 (by norm_num) (by norm_num) (by norm_num) (by norm_num) (by norm_num) total res h 0
    (by norm_num)
  obtain ⟨_, _, h3, _, h5⟩ := key
  intro i
  obtain ⟨j, _, j2, j3⟩ := h5 i ((hb _).trans hcb.symm) (by
    subst hf
    unfold scaledDist
    rw [Real.sqrt_lt' (by norm_num)]
    simp
    split_ifs <;> norm_num)
  exact ⟨j, by rw [← h3 rfl]; exact j2, j3⟩

end PC
