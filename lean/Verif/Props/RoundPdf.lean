import Verif.RoundPdf
import Verif.Props.CudaPdf
import Verif.Props.Repro
import Mathlib.Analysis.SpecialFunctions.Log.Basic
import Mathlib.Analysis.Complex.ExponentialBounds

/-! # C155: rounding errors of the densities -/

namespace PC

/-! ### single precision with gradual underflow -/

theorem fl32_err (x : ℝ) : |fl32 x - x| ≤ 1 / 2 * (2 : ℝ) ^ (max (Int.log 2 |x| - 23) (-149)) := by
  unfold fl32
  set e := max (Int.log 2 |x| - 23) (-149)
  have h2 : (0 : ℝ) < (2 : ℝ) ^ e := by positivity
  have hinv : (2 : ℝ) ^ (-e) * (2 : ℝ) ^ e = 1 := by
    rw [← zpow_add₀ (by norm_num)]
    simp
  have hr := abs_sub_round (x * (2 : ℝ) ^ (-e))
  have e1 : (round (x * (2 : ℝ) ^ (-e)) : ℝ) * (2 : ℝ) ^ e - x =
      -((x * (2 : ℝ) ^ (-e) - round (x * (2 : ℝ) ^ (-e))) * (2 : ℝ) ^ e) := by
    rw [sub_mul, mul_assoc x, hinv]; ring
  rw [e1, abs_neg, abs_mul, abs_of_pos h2]
  exact mul_le_mul_of_nonneg_right hr h2.le

theorem fl32_normal (x : ℝ) (hx : x ≠ 0) :
    1 / 2 * (2 : ℝ) ^ (Int.log 2 |x| - 23) ≤ 1 / 2 ^ 24 * |x| := by
  have hpos : 0 < |x| := abs_pos.mpr hx
  have hle : (2 : ℝ) ^ Int.log 2 |x| ≤ |x| := by
    have := Int.zpow_log_le_self (b := 2) (r := |x|) (by norm_num) hpos
    simpa using this
  calc 1 / 2 * (2 : ℝ) ^ (Int.log 2 |x| - 23) = 1 / 2 ^ 24 * (2 : ℝ) ^ Int.log 2 |x| := by
        rw [zpow_sub₀ (by norm_num)]
        norm_num
        ring
    _ ≤ 1 / 2 ^ 24 * |x| := mul_le_mul_of_nonneg_left hle (by norm_num)

theorem fl32_zero : fl32 0 = 0 := by
  unfold fl32
  simp

theorem fl32_mul (x : ℝ) (hx : IsMul32 x) : |fl32 x - x| ≤ 1 / 2 ^ 24 * |x| := by
  by_cases h0 : x = 0
  · subst h0; rw [fl32_zero]; simp
  rcases le_total (Int.log 2 |x| - 23) (-149) with h | h
  · obtain ⟨m, hm⟩ := hx
    have : fl32 x = x := by
      unfold fl32
      rw [max_eq_right h]
      have e : x * (2 : ℝ) ^ (-(-149 : ℤ)) = m := by
        rw [hm, mul_assoc, ← zpow_add₀ (by norm_num)]
        simp
      rw [e, round_intCast, ← hm]
    rw [this, sub_self, abs_zero]
    positivity
  · refine (fl32_err x).trans ?_
    rw [max_eq_left h]
    exact fl32_normal x h0

/-- Rounding to nearest with gradual underflow is such an arithmetic. -/
theorem fl32_arith : FloatArith fl32 IsMul32 (1 / 2 ^ 24) (1 / 2 ^ 150) where
  zero := ⟨0, by simp⟩
  mem x := by
    unfold fl32
    set e := max (Int.log 2 |x| - 23) (-149) with he
    have : (-149 : ℤ) ≤ e := le_max_right _ _
    obtain ⟨k, hk⟩ := Int.eq_ofNat_of_zero_le (show 0 ≤ e + 149 by omega)
    refine ⟨round (x * (2 : ℝ) ^ (-e)) * 2 ^ k, ?_⟩
    have : e = (k : ℤ) + (-149 : ℤ) := by omega
    push_cast
    rw [mul_assoc]
    congr 1
    rw [this, zpow_add₀ (by norm_num), zpow_natCast]
  add a b := by
    rintro ⟨m, rfl⟩ ⟨m', rfl⟩
    exact fl32_mul _ ⟨m + m', by push_cast; ring⟩
  sub a b := by
    rintro ⟨m, rfl⟩ ⟨m', rfl⟩
    exact fl32_mul _ ⟨m - m', by push_cast; ring⟩
  gen x := by
    by_cases h0 : x = 0
    · subst h0; rw [fl32_zero]; simp
    refine (fl32_err x).trans ?_
    rcases le_total (Int.log 2 |x| - 23) (-149) with h | h
    · rw [max_eq_right h]
      have : (1 : ℝ) / 2 * 2 ^ (-149 : ℤ) = 1 / 2 ^ 150 := by norm_num
      rw [this]
      have := abs_nonneg x
      linarith [show (0 : ℝ) ≤ 1 / 2 ^ 24 * |x| by positivity]
    · rw [max_eq_left h]
      have := fl32_normal x h0
      have h' : (0 : ℝ) ≤ 1 / 2 ^ 150 := by positivity
      linarith

/-! ### compensated summation with underflow -/

section
variable {fl : ℝ → ℝ} {F : ℝ → Prop} {u η : ℝ}

theorem FloatArith.fl_zero (A : FloatArith fl F u η) : fl 0 = 0 := by
  have := A.add 0 0 A.zero A.zero
  simp only [add_zero, sub_zero, abs_zero, mul_zero] at this
  exact abs_nonpos_iff.mp this

open Classical in
/-- Rounding of sums and differences only. -/
noncomputable def sumFl (fl : ℝ → ℝ) (F : ℝ → Prop) (x : ℝ) : ℝ :=
  if ∃ a b, F a ∧ F b ∧ (x = a + b ∨ x = a - b) then fl x else x

theorem sumFl_err (A : FloatArith fl F u η) (hu : 0 ≤ u) (x : ℝ) : |sumFl fl F x - x| ≤ u * |x| := by
  unfold sumFl
  split
  · rename_i h
    obtain ⟨a, b, ha, hb, rfl | rfl⟩ := h
    · exact A.add a b ha hb
    · exact A.sub a b ha hb
  · rw [sub_self, abs_zero]
    positivity

theorem sumFl_add {a b : ℝ} (ha : F a) (hb : F b) : sumFl fl F (a + b) = fl (a + b) :=
  if_pos ⟨a, b, ha, hb, Or.inl rfl⟩

theorem sumFl_sub {a b : ℝ} (ha : F a) (hb : F b) : sumFl fl F (a - b) = fl (a - b) :=
  if_pos ⟨a, b, ha, hb, Or.inr rfl⟩

theorem kahanStep_sumFl (A : FloatArith fl F u η) (s : ℝ × ℝ) (h1 : F s.1) (h2 : F s.2) (x : ℝ) (hx : F x) :
    kahanStepFl (sumFl fl F) s x = kahanStepFl fl s x ∧ F (kahanStepFl fl s x).1 ∧ F (kahanStepFl fl s x).2 := by
  have m1 : F (fl (x - s.2)) := A.mem _
  have m2 : F (fl (s.1 + fl (x - s.2))) := A.mem _
  have m3 : F (fl (fl (s.1 + fl (x - s.2)) - s.1)) := A.mem _
  refine ⟨?_, A.mem _, A.mem _⟩
  unfold kahanStepFl
  dsimp only
  rw [sumFl_sub hx h2, sumFl_add h1 m1, sumFl_sub m2 h1, sumFl_sub m3 m1]

theorem kahan_sumFl (A : FloatArith fl F u η) (l : List ℝ) (hl : ∀ x ∈ l, F x) :
    kahanFl (sumFl fl F) l = kahanFl fl l := by
  unfold kahanFl
  have : ∀ (s : ℝ × ℝ), F s.1 → F s.2 →
      l.foldl (kahanStepFl (sumFl fl F)) s = l.foldl (kahanStepFl fl) s := by
    induction l with
    | nil => intro s _ _; rfl
    | cons x l ih =>
      intro s h1 h2
      obtain ⟨e, m1, m2⟩ := kahanStep_sumFl A s h1 h2 x (hl x List.mem_cons_self)
      rw [List.foldl_cons, List.foldl_cons, e]
      exact ih (fun y hy => hl y (List.mem_cons_of_mem _ hy)) _ m1 m2
  exact this _ A.zero A.zero

/-- **C64, floating point with underflow**: the bound of `C64_rounding` holds for summation in numbers with gradual
underflow. -/
theorem C64_underflow (A : FloatArith fl F u η) (hu0 : 0 ≤ u) (hu : u ≤ 1 / 32) (l : List ℝ) (hF : ∀ x ∈ l, F x)
    (hl : (l.length : ℝ) * u ≤ 1) :
    |(kahanFl fl l).1 - l.sum| ≤ (7 * u + 14 * l.length * u ^ 2) * (l.map (fun x => |x|)).sum := by
  rw [← kahan_sumFl A l hF]
  exact C64_rounding _ u hu0 hu (sumFl_err A hu0) l hl

theorem kahan_roundedU (l : List (Rounded fl)) :
    (kahan l).1.val = (kahanFl fl (l.map Rounded.val)).1 := by
  unfold kahan kahanFl
  have : ∀ (s : Rounded fl × Rounded fl) (t : ℝ × ℝ), s.1.val = t.1 → s.2.val = t.2 →
      (l.foldl kahanStep s).1.val = ((l.map Rounded.val).foldl (kahanStepFl fl) t).1 := by
    induction l with
    | nil => intro s t h _; exact h
    | cons x l ih =>
      intro s t h1 h2
      rw [List.foldl_cons, List.map_cons, List.foldl_cons]
      refine ih _ _ ?_ ?_
      · unfold kahanStepFl
        rw [← h1, ← h2]
        rfl
      · unfold kahanStepFl
        rw [← h1, ← h2]
        rfl
  exact this _ _ rfl rfl

/-! ### relative errors -/

/-- `x'` is `x` with a relative error of at most `a - 1`. -/
def RelErr (a x' x : ℝ) : Prop := |x' - x| ≤ (a - 1) * |x|

theorem RelErr.abs_le {a x' x : ℝ} (h : RelErr a x' x) : |x'| ≤ a * |x| := by
  unfold RelErr at h
  have := abs_sub_abs_le_abs_sub x' x
  linarith

theorem RelErr.mono {a b x' x : ℝ} (h : RelErr a x' x) (hab : a ≤ b) : RelErr b x' x :=
  le_trans h (mul_le_mul_of_nonneg_right (by linarith) (abs_nonneg _))

theorem RelErr.mul {a b x' x y' y : ℝ} (hx : RelErr a x' x) (hy : RelErr b y' y) (ha : 1 ≤ a) :
    RelErr (a * b) (x' * y') (x * y) := by
  have h1 := hx.abs_le
  unfold RelErr at *
  have e : x' * y' - x * y = x' * (y' - y) + (x' - x) * y := by ring
  rw [e, abs_mul x y]
  refine (abs_add_le _ _).trans ?_
  rw [abs_mul, abs_mul]
  have i1 : |x'| * |y' - y| ≤ a * |x| * ((b - 1) * |y|) :=
    mul_le_mul h1 hy (abs_nonneg _) (by positivity)
  have i2 : |x' - x| * |y| ≤ (a - 1) * |x| * |y| := mul_le_mul_of_nonneg_right hx (abs_nonneg _)
  calc _ ≤ a * |x| * ((b - 1) * |y|) + (a - 1) * |x| * |y| := add_le_add i1 i2
    _ = _ := by ring

/-- Rounding of a number whose exact value is far from the underflow. -/
theorem RelErr.round (A : FloatArith fl F u η) {a x' x L : ℝ} (h : RelErr a x' x) (hu : 0 ≤ u) (ha : 1 ≤ a) (hL : L ≤ |x|)
    (hη : η ≤ u * L) : RelErr (a * (1 + 2 * u)) (fl x') x := by
  have h1 := h.abs_le
  have h2 := A.gen x'
  unfold RelErr at *
  have e : fl x' - x = (fl x' - x') + (x' - x) := by ring
  rw [e]
  refine (abs_add_le _ _).trans ?_
  have i1 : u * |x'| ≤ u * (a * |x|) := mul_le_mul_of_nonneg_left h1 hu
  have i2 : u * L ≤ u * |x| := mul_le_mul_of_nonneg_left hL hu
  have i3 : u * |x| ≤ u * a * |x| := by
    have : u * |x| * 1 ≤ u * |x| * a := mul_le_mul_of_nonneg_left ha (by positivity)
    linarith
  nlinarith

theorem RelErr.one (x : ℝ) : RelErr 1 x x := by
  unfold RelErr
  simp

/-- The scaled difference of two coordinates. -/
theorem diff_err (A : FloatArith fl F u η) (hu : 0 ≤ u) (hu' : u ≤ 1 / 128) (p c w' w r' r W : ℝ) (hp : F p) (hc : F c)
    (hw : RelErr (1 + 2 * u) w' w) (hr : RelErr (1 + 2 * u) r' r) (hη : η ≤ u) (hη0 : 0 ≤ η) (hηr : η * |r| ≤ u)
    (hz : |(p - c) * w * r| ≤ W) :
    |fl (fl (fl (p - c) * w') * r') - (p - c) * w * r| ≤ 12 * u * (W + 1) := by
  set s := p - c with hs
  have h1 : RelErr (1 + 2 * u) (fl s) s := by
    have := A.sub p c hp hc
    unfold RelErr
    refine this.trans (mul_le_mul_of_nonneg_right (by linarith) (abs_nonneg _))
  have h2 := h1.mul hw (by linarith)
  have h2a := h2.abs_le
  have g2 := A.gen (fl s * w')
  unfold RelErr at h2
  set x1 := fl s * w'
  set a2 := fl x1
  have k2 : |a2 - s * w| ≤ ((1 + 2 * u) ^ 3 - 1) * |s * w| + η := by
    have e : a2 - s * w = (a2 - x1) + (x1 - s * w) := by ring
    rw [e]
    refine (abs_add_le _ _).trans ?_
    have i1 : u * |x1| ≤ u * ((1 + 2 * u) * (1 + 2 * u) * |s * w|) := mul_le_mul_of_nonneg_left h2a hu
    have i2 : 0 ≤ u * ((1 + 2 * u) * (1 + 2 * u) * |s * w|) := by positivity
    have e3 : ((1 + 2 * u) ^ 3 - 1) * |s * w| = ((1 + 2 * u) * (1 + 2 * u) - 1) * |s * w| +
        2 * (u * ((1 + 2 * u) * (1 + 2 * u) * |s * w|)) := by ring
    linarith
  have hr2 := hr.abs_le
  unfold RelErr at hr
  have k3 : |a2 * r' - s * w * r| ≤ ((1 + 2 * u) ^ 4 - 1) * |s * w * r| + (1 + 2 * u) * (η * |r|) := by
    have e : a2 * r' - s * w * r = (a2 - s * w) * r' + s * w * (r' - r) := by ring
    rw [e]
    refine (abs_add_le _ _).trans ?_
    rw [abs_mul, abs_mul (s * w), abs_mul (s * w) r]
    have i1 : |a2 - s * w| * |r'| ≤ (((1 + 2 * u) ^ 3 - 1) * |s * w| + η) * ((1 + 2 * u) * |r|) :=
      mul_le_mul k2 hr2 (abs_nonneg _) (le_trans (abs_nonneg _) k2)
    have i2 : |s * w| * |r' - r| ≤ |s * w| * ((1 + 2 * u - 1) * |r|) := mul_le_mul_of_nonneg_left hr (abs_nonneg _)
    calc _ ≤ (((1 + 2 * u) ^ 3 - 1) * |s * w| + η) * ((1 + 2 * u) * |r|) + |s * w| * ((1 + 2 * u - 1) * |r|) :=
          add_le_add i1 i2
      _ = _ := by ring
  set x2 := a2 * r'
  set z := s * w * r
  have g3 := A.gen x2
  have hx2 : |x2| ≤ (1 + 2 * u) ^ 4 * |z| + (1 + 2 * u) * (η * |r|) := by
    have := abs_sub_abs_le_abs_sub x2 z
    linarith
  have e : fl x2 - z = (fl x2 - x2) + (x2 - z) := by ring
  rw [e]
  refine (abs_add_le _ _).trans ?_
  have i1 : u * |x2| ≤ u * ((1 + 2 * u) ^ 4 * |z| + (1 + 2 * u) * (η * |r|)) := mul_le_mul_of_nonneg_left hx2 hu
  have hz0 : 0 ≤ |z| := abs_nonneg _
  have p4 : (1 + 2 * u) ^ 4 ≤ 1 + 9 * u := by
    have e4 : (1 + 2 * u) ^ 4 = 1 + 8 * u + u * (24 * u + 32 * u ^ 2 + 16 * u ^ 3) := by ring
    rw [e4]
    have : 24 * u + 32 * u ^ 2 + 16 * u ^ 3 ≤ 1 := by
      have h2 : u ^ 2 ≤ (1 / 128) ^ 2 := pow_le_pow_left₀ hu hu' 2
      have h3 : u ^ 3 ≤ (1 / 128) ^ 3 := pow_le_pow_left₀ hu hu' 3
      linarith
    have := mul_le_mul_of_nonneg_left this hu
    linarith
  have t1 : ((1 + 2 * u) ^ 4 - 1) * |z| ≤ 9 * u * |z| := mul_le_mul_of_nonneg_right (by linarith) hz0
  have t2 : u * ((1 + 2 * u) ^ 4 * |z|) ≤ u * (2 * |z|) := by
    refine mul_le_mul_of_nonneg_left (mul_le_mul_of_nonneg_right ?_ hz0) hu
    linarith
  have t3 : (1 + 2 * u) * (η * |r|) ≤ 2 * u := by
    have : 0 ≤ η * |r| := by positivity
    nlinarith
  have t4 : u * ((1 + 2 * u) * (η * |r|)) ≤ u * 1 := mul_le_mul_of_nonneg_left (by linarith) hu
  have t5 : u * |z| ≤ u * W := mul_le_mul_of_nonneg_left hz hu
  have : u * ((1 + 2 * u) ^ 4 * |z| + (1 + 2 * u) * (η * |r|)) =
    u * ((1 + 2 * u) ^ 4 * |z|) + u * ((1 + 2 * u) * (η * |r|)) := by ring
  have : u * (2 * |z|) = 2 * (u * |z|) := by ring
  have : 12 * u * (W + 1) = 12 * (u * W) + 12 * u := by ring
  have hW : 0 ≤ u * W := le_trans (by positivity) t5
  linarith

/-- The exponent of the Gaussian function. -/
theorem expo_err (A : FloatArith fl F u η) (hu : 0 ≤ u) (hu' : u ≤ 1 / 128) (hη : η ≤ u) (z' z W : ℝ) (hz : |z| ≤ W)
    (hd : |z' - z| ≤ 12 * u * (W + 1)) :
    |fl (fl (z' * z') * (-0.5)) - (-z ^ 2 / 2)| ≤ 18 * u * (W + 1) ^ 2 := by
  have hW : 0 ≤ W := le_trans (abs_nonneg _) hz
  set V := W + 1 with hV
  have hV1 : 1 ≤ V := by linarith
  have hV2 : V ≤ V ^ 2 := by nlinarith
  have d0 : |z' - z| ≤ 12 / 128 * V := by
    refine hd.trans ?_
    nlinarith
  have hz' : |z'| ≤ 140 / 128 * V := by
    have := abs_sub_abs_le_abs_sub z' z
    linarith
  have hzz : |z' * z' - z ^ 2| ≤ 26 * u * V ^ 2 := by
    have e : z' * z' - z ^ 2 = (z' - z) * (z' + z) := by ring
    rw [e, abs_mul]
    have : |z' + z| ≤ 268 / 128 * V := (abs_add_le _ _).trans (by linarith)
    calc |z' - z| * |z' + z| ≤ (12 * u * V) * (268 / 128 * V) :=
          mul_le_mul hd this (abs_nonneg _) (by positivity)
      _ = (12 * 268 / 128) * (u * V ^ 2) := by ring
      _ ≤ 26 * (u * V ^ 2) := mul_le_mul_of_nonneg_right (by norm_num) (by positivity)
      _ = _ := by ring
  have hsq : |z' * z'| ≤ 5 / 4 * V ^ 2 := by
    rw [abs_mul]
    calc |z'| * |z'| ≤ (140 / 128 * V) * (140 / 128 * V) := mul_le_mul hz' hz' (abs_nonneg _) (by positivity)
      _ = (140 / 128) ^ 2 * V ^ 2 := by ring
      _ ≤ _ := mul_le_mul_of_nonneg_right (by norm_num) (by positivity)
  have g1 := A.gen (z' * z')
  set q1 := fl (z' * z')
  have uV : u ≤ u * V ^ 2 := by nlinarith
  have b1 : u * |z' * z'| ≤ u * (5 / 4 * V ^ 2) := mul_le_mul_of_nonneg_left hsq hu
  have k1 : |q1 - z' * z'| ≤ 9 / 4 * (u * V ^ 2) := by
    have : u * (5 / 4 * V ^ 2) = 5 / 4 * (u * V ^ 2) := by ring
    linarith
  have hq1 : |q1| ≤ 3 / 2 * V ^ 2 := by
    have h := abs_sub_abs_le_abs_sub q1 (z' * z')
    have : u * V ^ 2 ≤ 1 / 128 * V ^ 2 := mul_le_mul_of_nonneg_right hu' (by positivity)
    nlinarith [sq_nonneg V]
  have g2 := A.gen (q1 * (-0.5))
  have hh : |q1 * (-0.5)| ≤ 3 / 4 * V ^ 2 := by
    rw [abs_mul]
    have : |(-0.5 : ℝ)| = 1 / 2 := by norm_num [abs_of_neg]
    rw [this]
    linarith
  have b2 : u * |q1 * (-0.5)| ≤ u * (3 / 4 * V ^ 2) := mul_le_mul_of_nonneg_left hh hu
  have e : fl (q1 * (-0.5)) - (-z ^ 2 / 2) = (fl (q1 * (-0.5)) - q1 * (-0.5)) +
      (-1 / 2) * (q1 - z' * z') + (-1 / 2) * (z' * z' - z ^ 2) := by norm_num; ring
  rw [e]
  refine (abs_add_le _ _).trans ?_
  refine (add_le_add (abs_add_le _ _) le_rfl).trans ?_
  rw [abs_mul, abs_mul]
  have : |(-1 / 2 : ℝ)| = 1 / 2 := by norm_num [abs_of_neg]
  rw [this]
  have : u * (3 / 4 * V ^ 2) = 3 / 4 * (u * V ^ 2) := by ring
  have : 26 * u * V ^ 2 = 26 * (u * V ^ 2) := by ring
  have : 18 * u * V ^ 2 = 18 * (u * V ^ 2) := by ring
  linarith

/-- The exponential function. -/
theorem exp_err {v L : ℝ} (hu : 0 ≤ u) (hv : 0 ≤ v) (fexp : ℝ → ℝ) (hexp : ∀ x, |fexp x - Real.exp x| ≤ v * Real.exp x + η)
    (q' q Δ : ℝ) (hd : |q' - q| ≤ Δ) (hL : L ≤ Real.exp q) (hη : η ≤ u * L) :
    RelErr (Real.exp Δ * (1 + v + u)) (fexp q') (Real.exp q) := by
  unfold RelErr
  rw [abs_of_pos (Real.exp_pos q)]
  have hE := Real.exp_pos q
  have hΔ : 0 ≤ Δ := le_trans (abs_nonneg _) hd
  have h1 : Real.exp q' ≤ Real.exp Δ * Real.exp q := by
    rw [← Real.exp_add]
    apply Real.exp_le_exp.mpr
    have := (abs_le.mp hd).2
    linarith
  have h2 : |Real.exp q' - Real.exp q| ≤ (Real.exp Δ - 1) * Real.exp q := by
    rw [abs_le]
    constructor
    · have h3 : Real.exp (-Δ) * Real.exp q ≤ Real.exp q' := by
        rw [← Real.exp_add]
        apply Real.exp_le_exp.mpr
        have := (abs_le.mp hd).1
        linarith
      have h4 : 2 - Real.exp Δ ≤ Real.exp (-Δ) := by
        rw [Real.exp_neg]
        have hp := Real.exp_pos Δ
        rw [← one_div, le_div_iff₀ hp]
        nlinarith [sq_nonneg (Real.exp Δ - 1)]
      have := mul_le_mul_of_nonneg_right h4 hE.le
      linarith
    · linarith
  have h3 := hexp q'
  have e : fexp q' - Real.exp q = (fexp q' - Real.exp q') + (Real.exp q' - Real.exp q) := by ring
  rw [e]
  refine (abs_add_le _ _).trans ?_
  have i1 : v * Real.exp q' ≤ v * (Real.exp Δ * Real.exp q) := mul_le_mul_of_nonneg_left h1 hv
  have i2 : u * L ≤ u * Real.exp q := mul_le_mul_of_nonneg_left hL hu
  have i3 : u * Real.exp q ≤ Real.exp Δ * u * Real.exp q := by
    have : 1 ≤ Real.exp Δ := Real.one_le_exp hΔ
    have := mul_le_mul_of_nonneg_right this (show 0 ≤ u * Real.exp q by positivity)
    linarith
  calc _ ≤ (v * Real.exp q' + η) + (Real.exp Δ - 1) * Real.exp q := add_le_add h3 h2
    _ ≤ (v * (Real.exp Δ * Real.exp q) + Real.exp Δ * u * Real.exp q) + (Real.exp Δ - 1) * Real.exp q := by linarith
    _ = _ := by ring

/-- One factor of a term. -/
theorem factor_err (A : FloatArith fl F u η) {v L W w' w c' c z' z : ℝ} (hu : 0 ≤ u) (hu' : u ≤ 1 / 128) (hv : 0 ≤ v)
    (fexp : ℝ → ℝ) (hexp : ∀ x, |fexp x - Real.exp x| ≤ v * Real.exp x + η) (hw : RelErr (1 + 2 * u) w' w)
    (hc : RelErr (1 + 2 * u) c' c) (hη : η ≤ u) (hz : |z| ≤ W) (hd : |z' - z| ≤ 12 * u * (W + 1)) (hw0 : 0 < w)
    (hc0 : 0 < c) (hc1 : c ≤ 1) (hL1 : L ≤ Real.exp (-z ^ 2 / 2)) (hL2 : L ≤ w * Real.exp (-z ^ 2 / 2) * c)
    (hηL : η ≤ u * L) :
    RelErr (Real.exp (18 * u * (W + 1) ^ 2) * (1 + v + u) * (1 + 2 * u) ^ 4)
      (fl (fl (w' * fexp (fl (fl (z' * z') * (-0.5)))) * c')) (w * Real.exp (-z ^ 2 / 2) * c) := by
  have hE := Real.exp_pos (-z ^ 2 / 2)
  have h1 := exp_err hu hv fexp hexp _ _ _ (expo_err A hu hu' hη z' z W hz hd) hL1 hηL
  have hG : 1 ≤ Real.exp (18 * u * (W + 1) ^ 2) * (1 + v + u) := by
    have := Real.one_le_exp (show 0 ≤ 18 * u * (W + 1) ^ 2 by positivity)
    nlinarith
  have h1u : (1 : ℝ) ≤ 1 + 2 * u := by linarith
  have h2 := hw.mul h1 h1u
  have hG2 := one_le_mul_of_one_le_of_one_le h1u hG
  have hwE : L ≤ |w * Real.exp (-z ^ 2 / 2)| := by
    rw [abs_of_pos (by positivity)]
    refine hL2.trans ?_
    have : w * Real.exp (-z ^ 2 / 2) * c ≤ w * Real.exp (-z ^ 2 / 2) * 1 :=
      mul_le_mul_of_nonneg_left hc1 (by positivity)
    linarith
  have h3 := h2.round A hu hG2 hwE hηL
  have hG3 := one_le_mul_of_one_le_of_one_le hG2 h1u
  have h4 := h3.mul hc hG3
  have h5 := h4.round A hu (one_le_mul_of_one_le_of_one_le hG3 h1u)
    (by rw [abs_of_pos (by positivity)]; exact hL2) hηL
  refine h5.mono (le_of_eq ?_)
  ring

/-- The product of the factors. -/
theorem prod_err (A : FloatArith fl F u η) {ι : Type*} {G L : ℝ} (hu : 0 ≤ u) (hG : 1 ≤ G) (f' f : ι → ℝ) (hηL : η ≤ u * L) :
    ∀ (l : List ι) (α a' a : ℝ), 1 ≤ α → RelErr α a' a → (∀ d ∈ l, RelErr G (f' d) (f d)) →
      (∀ l1 l2, l = l1 ++ l2 → L ≤ |a * (l1.map f).prod|) →
      RelErr (α * (G * (1 + 2 * u)) ^ l.length) (l.foldl (fun acc d => fl (acc * f' d)) a') (a * (l.map f).prod) := by
  intro l
  induction l with
  | nil => intro α a' a _ h _ _; simpa using h
  | cons d l ih =>
    intro α a' a hα h hf hL
    rw [List.foldl_cons, List.map_cons, List.prod_cons, ← mul_assoc a]
    have h1 := h.mul (hf d List.mem_cons_self) hα
    have h1' := one_le_mul_of_one_le_of_one_le hα hG
    have h2 := h1.round A hu h1' (by simpa using hL [d] l rfl) hηL
    have := ih (α * G * (1 + 2 * u)) _ (a * f d) (one_le_mul_of_one_le_of_one_le h1' (by linarith)) h2
      (fun x hx => hf x (List.mem_cons_of_mem _ hx)) (fun l1 l2 e => by
        have := hL (d :: l1) l2 (by rw [e]; rfl)
        rw [List.map_cons, List.prod_cons, ← mul_assoc] at this
        exact this)
    refine this.mono (le_of_eq ?_)
    rw [List.length_cons, pow_succ]
    ring

/-- Partial products are not small. -/
theorem prefix_lower {ι : Type*} (w z : ι → ℝ) (c κ W : ℝ) (hκ : 0 < κ) (hκ1 : κ ≤ 1) (hw : ∀ d, κ ≤ w d * c) (l l1 l2 : List ι)
    (hl : l = l1 ++ l2) (hs : (l.map (fun d => z d ^ 2)).sum ≤ W ^ 2) :
    κ ^ l.length * Real.exp (-W ^ 2 / 2) ≤ (l1.map (fun d => w d * Real.exp (-z d ^ 2 / 2) * c)).prod := by
  have h1 : (l1.map (fun d => z d ^ 2)).sum ≤ W ^ 2 := by
    rw [hl, List.map_append, List.sum_append] at hs
    have : 0 ≤ (l2.map (fun d => z d ^ 2)).sum := List.sum_nonneg (by
      intro x hx
      obtain ⟨d, _, rfl⟩ := List.mem_map.mp hx
      positivity)
    linarith
  have h2 : κ ^ l.length ≤ κ ^ l1.length := by
    refine pow_le_pow_of_le_one hκ.le hκ1 ?_
    rw [hl, List.length_append]
    exact Nat.le_add_right _ _
  have h3 : κ ^ l1.length * Real.exp (-(l1.map (fun d => z d ^ 2)).sum / 2) ≤
      (l1.map (fun d => w d * Real.exp (-z d ^ 2 / 2) * c)).prod := by
    clear hl hs h1 h2
    induction l1 with
    | nil => simp
    | cons d l ih =>
      rw [List.map_cons, List.sum_cons, List.map_cons, List.prod_cons, List.length_cons, pow_succ]
      have e : Real.exp (-(z d ^ 2 + (l.map (fun d => z d ^ 2)).sum) / 2) =
          Real.exp (-z d ^ 2 / 2) * Real.exp (-(l.map (fun d => z d ^ 2)).sum / 2) := by
        rw [← Real.exp_add]
        congr 1
        ring
      rw [e]
      calc κ ^ l.length * κ * (Real.exp (-z d ^ 2 / 2) * Real.exp (-(l.map (fun d => z d ^ 2)).sum / 2))
          = (κ * Real.exp (-z d ^ 2 / 2)) * (κ ^ l.length * Real.exp (-(l.map (fun d => z d ^ 2)).sum / 2)) := by ring
        _ ≤ (w d * c * Real.exp (-z d ^ 2 / 2)) * (l.map (fun d => w d * Real.exp (-z d ^ 2 / 2) * c)).prod := by
            refine mul_le_mul (mul_le_mul_of_nonneg_right (hw d) (Real.exp_pos _).le) ih (by positivity) ?_
            exact mul_nonneg (le_trans hκ.le (hw d)) (Real.exp_pos _).le
        _ = _ := by ring
  refine le_trans (mul_le_mul h2 (Real.exp_le_exp.mpr ?_) (Real.exp_pos _).le (by positivity)) h3
  linarith

theorem RelErr.trans {a b x'' x' x : ℝ} (h : RelErr a x'' x') (h' : RelErr b x' x) (ha : 1 ≤ a) : RelErr (a * b) x'' x := by
  have h1 := h'.abs_le
  unfold RelErr at *
  have e : x'' - x = (x'' - x') + (x' - x) := by ring
  rw [e]
  refine (abs_add_le _ _).trans ?_
  have := mul_le_mul_of_nonneg_left h1 (show 0 ≤ a - 1 by linarith)
  nlinarith

theorem RelErr.inv (A : FloatArith fl F u η) (hu : 0 ≤ u) {x : ℝ} (hx : 0 < x) (hη : η * x ≤ u) :
    RelErr (1 + 2 * u) (fl (1 / x)) x⁻¹ := by
  have := A.gen (1 / x)
  unfold RelErr
  rw [one_div] at *
  rw [abs_of_pos (inv_pos.mpr hx)] at *
  have h2 : η ≤ u * x⁻¹ := by
    rw [← div_eq_mul_inv, le_div_iff₀ hx]
    exact hη
  linarith

/-- Sums of numbers with relative errors, compensated. -/
theorem sum_err (A : FloatArith fl F u η) (hu0 : 0 ≤ u) (hu : u ≤ 1 / 32) {ι : Type*} (l : List ι) (t' t : ι → ℝ) {G : ℝ}
    (hG : 1 ≤ G) (hF : ∀ j ∈ l, F (t' j)) (ht : ∀ j ∈ l, 0 ≤ t j) (hr : ∀ j ∈ l, RelErr G (t' j) (t j))
    (hl : (l.length : ℝ) * u ≤ 1) :
    RelErr ((1 + (7 * u + 14 * l.length * u ^ 2)) * G) (kahanFl fl (l.map t')).1 (l.map t).sum := by
  have h1 := C64_underflow A hu0 hu (l.map t') (by
    intro x hx
    obtain ⟨j, hj, rfl⟩ := List.mem_map.mp hx
    exact hF j hj) (by rw [List.length_map]; exact hl)
  rw [List.length_map, List.map_map] at h1
  have h2 : 0 ≤ (l.map t).sum := List.sum_nonneg (by
    intro x hx
    obtain ⟨j, hj, rfl⟩ := List.mem_map.mp hx
    exact ht j hj)
  have h3 : (l.map ((fun x => |x|) ∘ t')).sum ≤ G * (l.map t).sum ∧ |(l.map t').sum - (l.map t).sum| ≤ (G - 1) * (l.map t).sum := by
    clear h1 h2 hl hF
    induction l with
    | nil => simp
    | cons j l ih =>
      obtain ⟨i1, i2⟩ := ih (fun x hx => ht x (List.mem_cons_of_mem _ hx)) (fun x hx => hr x (List.mem_cons_of_mem _ hx))
      have a1 := (hr j List.mem_cons_self).abs_le
      have a2 := hr j List.mem_cons_self
      unfold RelErr at a2
      rw [abs_of_nonneg (ht j List.mem_cons_self)] at a1 a2
      simp only [List.map_cons, List.sum_cons, Function.comp]
      constructor
      · have := add_le_add a1 i1
        simp only [Function.comp_def] at this
        linarith
      · have e : t' j + (l.map t').sum - (t j + (l.map t).sum) = (t' j - t j) + ((l.map t').sum - (l.map t).sum) := by ring
        rw [e]
        refine (abs_add_le _ _).trans ?_
        linarith
  unfold RelErr
  rw [abs_of_nonneg h2]
  set S := (l.map t).sum
  have e : (kahanFl fl (l.map t')).1 - S = ((kahanFl fl (l.map t')).1 - (l.map t').sum) + ((l.map t').sum - S) := by ring
  rw [e]
  refine (abs_add_le _ _).trans ?_
  have hk : 0 ≤ 7 * u + 14 * l.length * u ^ 2 := by positivity
  have := mul_le_mul_of_nonneg_left h3.1 hk
  nlinarith [h3.2]

/-- Factor by which rounding may change a term of the density with `D` dimensions; `W` bounds the reciprocals of the
bandwidths, `v` is the relative error of the exponential function. -/
noncomputable def termFactor (u v W : ℝ) (D : ℕ) : ℝ :=
  (Real.exp (18 * u * (W + 1) ^ 2) * (1 + v + u) * (1 + 2 * u) ^ 5) ^ D

/-- The numbers used by the kernel are far from the underflow. -/
structure NoUnderflow {D : ℕ} (u η κ W : ℝ) (bw radii : Fin D → ℝ) : Prop where
  bw_pos : ∀ d, 0 < bw d
  rad_pos : ∀ d, 0 < radii d
  bw_le : ∀ d, (bw d)⁻¹ ≤ W
  kpos : 0 < κ
  kle : κ ≤ 1
  kbw : ∀ d, κ ≤ (bw d)⁻¹ * pdfConst
  e_bw : ∀ d, η * bw d ≤ u
  e_rad : ∀ d, η * radii d ≤ u
  e_rad' : ∀ d, η ≤ u * radii d
  e_term : η ≤ u * (κ ^ D * Real.exp (-W ^ 2 / 2))

theorem term_err (A : FloatArith fl F u η) (hu : 0 ≤ u) (hu' : u ≤ 1 / 128) (hη0 : 0 ≤ η) {v : ℝ} (hv : 0 ≤ v)
    (fexp : ℝ → ℝ) (hexp : ∀ x, |fexp x - Real.exp x| ≤ v * Real.exp x + η) (froot : ℕ → ℝ) (fconst : ℝ)
    (hc : |fconst - pdfConst| ≤ u * pdfConst) {D n m : ℕ} (hD : 0 < D) (pts : Fin n → Fin D → ℝ) (hF : ∀ i d, F (pts i d))
    (pairs : List (Fin n × Fin m)) (ends : ℕ → ℕ) (bw radii : Fin D → ℝ) {κ W : ℝ} (hN : NoUnderflow u η κ W bw radii)
    (i j : ℕ) (hj : j < pairs.length) (hi : pairs[j].2.val = i) (hin : i < n)
    (hb : ∑ d, ((pts pairs[j].1 d - pts ⟨i, hin⟩ d) / radii d) ^ 2 ≤ 1) :
    let I := pdfArgsFl fl fexp froot fconst pts pairs ends bw radii
    F (pdfLocalA I (pdfInvBwA I 0) 1 i j).val ∧
    RelErr (termFactor u v W D) (pdfLocalA I (pdfInvBwA I 0) 1 i j).val
      (pdfTerm (pdfArgs pts pairs ends bw radii) (fun d => (bw d)⁻¹) i j) := by
  intro I
  have e1 : I.nb j = (pairs[j].1.val, pairs[j].2.val) := by
    simp [I, pdfArgsFl, List.getElem?_eq_getElem hj]
  have e2 : ∀ d, gatherPt pts pairs[j].1.val d = pts pairs[j].1 d := by
    intro d; simp [gatherPt]
  have e3 : ∀ d, gatherPt pts i d = pts ⟨i, hin⟩ d := by
    intro d; simp [gatherPt, hin]
  have e1' : (pdfArgs pts pairs ends bw radii).nb j = (pairs[j].1.val, pairs[j].2.val) := by
    simp [pdfArgs, List.getElem?_eq_getElem hj]
  set p := pts pairs[j].1 with hp
  set c := pts ⟨i, hin⟩ with hcc
  set zf : Fin D → ℝ := fun d => fl (fl (fl (p d - c d) * fl (1 / bw d)) * fl (1 / radii d)) with hzf
  set z : Fin D → ℝ := fun d => (p d - c d) * (bw d)⁻¹ * (radii d)⁻¹ with hz
  set f' : Fin D → ℝ := fun d => fl (fl (fl (1 / bw d) * fexp (fl (fl (zf d * zf d) * (-0.5)))) * fconst) with hf'
  set f : Fin D → ℝ := fun d => (bw d)⁻¹ * Real.exp (-z d ^ 2 / 2) * pdfConst with hf
  have hval : (pdfLocalA I (pdfInvBwA I 0) 1 i j).val = (List.finRange D).foldl (fun acc d => fl (acc * f' d)) 1 := by
    unfold pdfLocalA
    have hd : ∀ d, (pdfDiffA I (pdfInvBwA I 0) i j d).val = zf d := by
      intro d
      unfold pdfDiffA
      rw [e1]
      show fl (fl (fl (gatherPt pts pairs[j].1.val d - gatherPt pts i d) * fl (1 / bw d)) * fl (1 / radii d)) = _
      rw [e2, e3]
    have key : ∀ (l : List (Fin D)) (a : Rounded fl), (l.foldl (fun acc d => acc * (pdfInvBwA I 0 d *
        I.exp (pdfDiffA I (pdfInvBwA I 0) i j d * pdfDiffA I (pdfInvBwA I 0) i j d * I.mhalf) * I.const)) a).val =
        l.foldl (fun acc d => fl (acc * f' d)) a.val := by
      intro l
      induction l with
      | nil => intro a; rfl
      | cons d l ih =>
        intro a
        rw [List.foldl_cons, List.foldl_cons, ih]
        congr 1
        show fl (a.val * fl (fl (fl (1 / bw d) * fexp (fl (fl ((pdfDiffA I (pdfInvBwA I 0) i j d).val *
          (pdfDiffA I (pdfInvBwA I 0) i j d).val) * (-0.5)))) * fconst)) = fl (a.val * f' d)
        rw [hd]
    exact key _ _
  have hterm : pdfTerm (pdfArgs pts pairs ends bw radii) (fun d => (bw d)⁻¹) i j = 1 * ((List.finRange D).map f).prod := by
    rw [one_mul, ← List.ofFn_eq_map, List.prod_ofFn]
    unfold pdfTerm
    refine Finset.prod_congr rfl (fun d _ => ?_)
    rw [e1']
    show (bw d)⁻¹ * Real.exp (-((gatherPt pts pairs[j].1.val d - gatherPt pts i d) * (bw d)⁻¹ * (radii d)⁻¹) ^ 2 / 2) *
      pdfConst = _
    rw [e2, e3]
  constructor
  · rw [hval]
    obtain ⟨D', rfl⟩ : ∃ D', D = D' + 1 := ⟨D - 1, by omega⟩
    rw [List.finRange_succ_last, List.foldl_append]
    exact A.mem _
  · have hW0 : 0 ≤ W := le_trans (inv_pos.mpr (hN.bw_pos ⟨0, hD⟩)).le (hN.bw_le ⟨0, hD⟩)
    have hs : ((List.finRange D).map (fun d => z d ^ 2)).sum ≤ W ^ 2 := by
      rw [← List.ofFn_eq_map, List.sum_ofFn]
      calc ∑ d, z d ^ 2 ≤ ∑ d, W ^ 2 * ((p d - c d) / radii d) ^ 2 := by
            refine Finset.sum_le_sum (fun d _ => ?_)
            have h0 := inv_pos.mpr (hN.bw_pos d)
            have : z d ^ 2 = ((bw d)⁻¹) ^ 2 * ((p d - c d) / radii d) ^ 2 := by
              rw [hz]; simp only [div_eq_mul_inv]; ring
            rw [this]
            exact mul_le_mul_of_nonneg_right (pow_le_pow_left₀ h0.le (hN.bw_le d) 2) (sq_nonneg _)
        _ = W ^ 2 * ∑ d, ((p d - c d) / radii d) ^ 2 := by rw [Finset.mul_sum]
        _ ≤ W ^ 2 * 1 := mul_le_mul_of_nonneg_left hb (sq_nonneg _)
        _ = _ := mul_one _
    have hzW : ∀ d, z d ^ 2 ≤ W ^ 2 := by
      intro d
      refine le_trans ?_ hs
      rw [← List.ofFn_eq_map, List.sum_ofFn]
      exact Finset.single_le_sum (f := fun d => z d ^ 2) (fun d _ => sq_nonneg _) (Finset.mem_univ d)
    have hzW' : ∀ d, |z d| ≤ W := fun d => abs_le_of_sq_le_sq (hzW d) hW0
    set L := κ ^ D * Real.exp (-W ^ 2 / 2) with hLdef
    have hκD : κ ^ D ≤ κ := by
      calc κ ^ D ≤ κ ^ 1 := pow_le_pow_of_le_one hN.kpos.le hN.kle hD
        _ = κ := pow_one κ
    have hL0 : 0 ≤ L := mul_nonneg (pow_nonneg hN.kpos.le _) (Real.exp_pos _).le
    have hLe : ∀ d, L ≤ κ * Real.exp (-z d ^ 2 / 2) := by
      intro d
      refine mul_le_mul hκD (Real.exp_le_exp.mpr ?_) (Real.exp_pos _).le hN.kpos.le
      have := hzW d
      linarith
    have hL1 : ∀ d, L ≤ Real.exp (-z d ^ 2 / 2) := by
      intro d
      refine (hLe d).trans ?_
      have := mul_le_mul_of_nonneg_right hN.kle (Real.exp_pos (-z d ^ 2 / 2)).le
      linarith
    have hLle1 : L ≤ 1 := by
      refine (hL1 ⟨0, hD⟩).trans ?_
      rw [Real.exp_le_one_iff]
      have := sq_nonneg (z ⟨0, hD⟩)
      linarith
    have hηu : η ≤ u := hN.e_term.trans (by
      have := mul_le_mul_of_nonneg_left hLle1 hu
      linarith)
    have hc0 : 0 < pdfConst := by unfold pdfConst; norm_num
    have hc1 : pdfConst ≤ 1 := by unfold pdfConst; norm_num
    have hcr : RelErr (1 + 2 * u) fconst pdfConst := by
      unfold RelErr
      rw [abs_of_pos hc0]
      refine hc.trans ?_
      nlinarith
    have hfac : ∀ d, RelErr (Real.exp (18 * u * (W + 1) ^ 2) * (1 + v + u) * (1 + 2 * u) ^ 4) (f' d) (f d) := by
      intro d
      have hw := RelErr.inv A hu (hN.bw_pos d) (hN.e_bw d)
      have hr := RelErr.inv A hu (hN.rad_pos d) (hN.e_rad d)
      refine factor_err A hu hu' hv fexp hexp hw hcr hηu (hzW' d) ?_ (inv_pos.mpr (hN.bw_pos d)) hc0 hc1 (hL1 d) ?_ hN.e_term
      · refine diff_err A hu hu' (p d) (c d) _ _ _ _ W (hF _ _) (hF _ _) hw hr hηu hη0 ?_ (hzW' d)
        rw [abs_of_pos (inv_pos.mpr (hN.rad_pos d)), ← div_eq_mul_inv, div_le_iff₀ (hN.rad_pos d)]
        exact hN.e_rad' d
      · refine (hLe d).trans ?_
        have := mul_le_mul_of_nonneg_right (hN.kbw d) (Real.exp_pos (-z d ^ 2 / 2)).le
        linarith
    have hG : 1 ≤ Real.exp (18 * u * (W + 1) ^ 2) * (1 + v + u) * (1 + 2 * u) ^ 4 := by
      have h1 := Real.one_le_exp (show 0 ≤ 18 * u * (W + 1) ^ 2 by positivity)
      have h2 : (1 : ℝ) ≤ 1 + v + u := by linarith
      have h3 : (1 : ℝ) ≤ (1 + 2 * u) ^ 4 := one_le_pow₀ (by linarith)
      exact one_le_mul_of_one_le_of_one_le (one_le_mul_of_one_le_of_one_le h1 h2) h3
    have := prod_err A (L := L) hu hG f' f hN.e_term (List.finRange D) 1 1 1 le_rfl (RelErr.one 1) (fun d _ => hfac d) (by
      intro l1 l2 e
      have := prefix_lower (fun d => (bw d)⁻¹) z pdfConst κ W hN.kpos hN.kle hN.kbw _ l1 l2 e hs
      rw [List.length_finRange] at this
      rw [one_mul]
      exact this.trans (le_abs_self _))
    rw [hval, hterm]
    refine this.mono (le_of_eq ?_)
    unfold termFactor
    rw [one_mul, List.length_finRange]
    congr 1
    ring

/-- **C155**: the density computed by the kernel is the density up to a relative error, which depends on the bandwidth and
the number of dimensions but, up to terms of second order, not on the number of neighbours, the size of the cloud, its
position or the radii.  All launch sizes and schedules. -/
theorem C155_density (A : FloatArith fl F u η) (hu : 0 ≤ u) (hu' : u ≤ 1 / 128) (hη0 : 0 ≤ η) {v : ℝ} (hv : 0 ≤ v)
    (fexp : ℝ → ℝ) (hexp : ∀ x, |fexp x - Real.exp x| ≤ v * Real.exp x + η) (froot : ℕ → ℝ) (fconst : ℝ)
    (hc : |fconst - pdfConst| ≤ u * pdfConst) {D n : ℕ} (hD : 0 < D) (pts : Fin n → Fin D → ℝ) (hF : ∀ i d, F (pts i d))
    (ranges : List ℕ) (pairs : List (Fin n × Fin n)) (hd : RangesDelimit ranges pairs) (bw radii : Fin D → ℝ) {κ W : ℝ}
    (hN : NoUnderflow u η κ W bw radii)
    (hb : ∀ q ∈ pairs, ∑ d, ((pts q.1 d - pts q.2 d) / radii d) ^ 2 ≤ 1) (B Wb : ℕ) (hB : 0 < B) (hW : 0 < Wb)
    (out : ℕ → Rounded fl)
    (hrun : PdfFwdA (pdfArgsFl fl fexp froot fconst pts pairs (fun i => ranges.getD i 0) bw radii)
      KDEMode.constant.value B Wb out) (i : Fin n)
    (hl : ((pairs.filter (fun q => q.2 = i)).length : ℝ) * u ≤ 1) :
    |(out i.val).val - pdfOfPairs gauss pts bw radii .constant pairs i| ≤
      ((1 + (7 * u + 14 * (pairs.filter (fun q => q.2 = i)).length * u ^ 2)) * termFactor u v W D * (1 + 2 / 10 ^ 9) ^ D - 1) *
        pdfOfPairs gauss pts bw radii .constant pairs i := by
  set ends : ℕ → ℕ := fun i => ranges.getD i 0 with hends
  have hf := pairs_of_range hd i
  have hlt : ∀ j ∈ rangeIdx ends i.val, j < pairs.length := fun j => rangeIdx_lt hd i.val j
  have hcen : ∀ j ∈ rangeIdx ends i.val, ∀ h : j < pairs.length, pairs[j].2.val = i.val := by
    intro j hj h
    have : pairs[j] ∈ pairs.filter (fun p => p.2.val = i.val) := by
      rw [hf, List.mem_filterMap]
      exact ⟨j, hj, List.getElem?_eq_getElem h⟩
    simpa using (List.mem_filter.mp this).2
  have hlen : (pairs.filter (fun q => q.2 = i)).length = (rangeIdx ends i.val).length := by
    have e : pairs.filter (fun q => q.2 = i) = pairs.filter (fun p => p.2.val = i.val) := by
      refine List.filter_congr (fun x _ => ?_)
      simp [Fin.ext_iff]
    rw [e, hf]
    have : ∀ l : List ℕ, (∀ j ∈ l, j < pairs.length) → (l.filterMap (fun j => pairs[j]?)).length = l.length := by
      intro l
      induction l with
      | nil => simp
      | cons j l ih =>
        intro h
        rw [List.filterMap_cons, List.getElem?_eq_getElem (h j List.mem_cons_self)]
        simp only [List.length_cons]
        rw [ih (fun x hx => h x (List.mem_cons_of_mem _ hx))]
    exact this _ hlt
  rw [hlen] at hl ⊢
  have hu32 : u ≤ 1 / 32 := by linarith
  have hval := pdfFwd_eqA _ _ B Wb hB hW out hrun i.val i.isLt
  have hterm : ∀ j ∈ rangeIdx ends i.val, _ := fun j hj =>
    term_err A hu hu' hη0 hv fexp hexp froot fconst hc hD pts hF pairs ends bw radii hN i.val j (hlt j hj)
      (hcen j hj (hlt j hj)) i.isLt (by
        have hjl := hlt j hj
        have h1 := hb pairs[j] (List.getElem_mem _)
        have h2 : pairs[j].2 = i := Fin.ext (hcen j hj (hlt j hj))
        rw [h2] at h1
        exact h1)
  have hG : 1 ≤ termFactor u v W D := by
    unfold termFactor
    refine one_le_pow₀ ?_
    have h1 := Real.one_le_exp (show 0 ≤ 18 * u * (W + 1) ^ 2 by positivity)
    have h2 : (1 : ℝ) ≤ 1 + v + u := by linarith
    have h3 : (1 : ℝ) ≤ (1 + 2 * u) ^ 5 := one_le_pow₀ (by linarith)
    exact one_le_mul_of_one_le_of_one_le (one_le_mul_of_one_le_of_one_le h1 h2) h3
  have hpos : ∀ j, 0 ≤ pdfTerm (pdfArgs pts pairs ends bw radii) (fun d => (bw d)⁻¹) i.val j := by
    intro j
    refine Finset.prod_nonneg (fun d _ => ?_)
    have := inv_pos.mpr (hN.bw_pos d)
    have : (0 : ℝ) ≤ pdfConst := by unfold pdfConst; norm_num
    positivity
  have hsum := sum_err A hu hu32 (rangeIdx ends i.val)
    (fun j => (pdfLocalA (pdfArgsFl fl fexp froot fconst pts pairs ends bw radii)
      (pdfInvBwA (pdfArgsFl fl fexp froot fconst pts pairs ends bw radii) 0) 1 i.val j).val)
    (pdfTerm (pdfArgs pts pairs ends bw radii) (fun d => (bw d)⁻¹) i.val) hG (fun j hj => (hterm j hj).1)
    (fun j _ => hpos j) (fun j hj => (hterm j hj).2) hl
  have hout : (out i.val).val = (kahanFl fl ((rangeIdx ends i.val).map
      (fun j => (pdfLocalA (pdfArgsFl fl fexp froot fconst pts pairs ends bw radii)
      (pdfInvBwA (pdfArgsFl fl fexp froot fconst pts pairs ends bw radii) 0) 1 i.val j).val))).1 := by
    rw [hval, kahan_roundedU, List.map_map]
    rfl
  rw [← hout, pdf_cuda_tf pts ranges pairs hd bw radii i .constant i.isLt] at hsum
  have hP : 0 ≤ pdfOfPairs gauss pts bw radii .constant pairs i := by
    unfold pdfOfPairs
    refine div_nonneg (List.sum_nonneg ?_) (Finset.prod_nonneg (fun d _ => (hN.bw_pos d).le))
    intro x hx
    obtain ⟨q, _, rfl⟩ := List.mem_map.mp hx
    unfold pairKernel
    refine Finset.prod_nonneg (fun d _ => ?_)
    unfold gauss
    positivity
  have hlit : RelErr ((1 + 2 / 10 ^ 9) ^ D) (pdfOfPairs gauss pts bw radii .constant pairs i *
      (pdfConst * Real.sqrt (2 * Real.pi)) ^ D) (pdfOfPairs gauss pts bw radii .constant pairs i) := by
    have h0 := pdfConst_close
    set x := pdfConst * Real.sqrt (2 * Real.pi)
    have : ∀ k : ℕ, RelErr ((1 + 2 / 10 ^ 9) ^ k) (x ^ k) 1 := by
      intro k
      induction k with
      | zero => simpa using RelErr.one 1
      | succ k ih =>
        have h1 : RelErr (1 + 2 / 10 ^ 9) x 1 := by
          unfold RelErr
          rw [abs_one]
          linarith
        have := ih.mul h1 (one_le_pow₀ (by norm_num))
        rw [← pow_succ, ← pow_succ, mul_one] at this
        exact this
    have := (RelErr.one (pdfOfPairs gauss pts bw radii .constant pairs i)).mul (this D) le_rfl
    rwa [one_mul, mul_one] at this
  have hfin := hsum.trans hlit (one_le_mul_of_one_le_of_one_le (by
    have : 0 ≤ 7 * u + 14 * (rangeIdx ends i.val).length * u ^ 2 := by positivity
    linarith) hG)
  unfold RelErr at hfin
  rw [abs_of_nonneg hP] at hfin
  exact hfin

end

/-- **C155, single precision**: up to six dimensions, bandwidths between 1/8 and 8, at most a million neighbours, an
exponential function with an error of two units in the last place: the relative error is below one thousandth, and the
density is positive, so that dividing by it is possible. -/
theorem C155_single_precision (fexp : ℝ → ℝ) (hexp : ∀ x, |fexp x - Real.exp x| ≤ 1 / 2 ^ 22 * Real.exp x + 1 / 2 ^ 150)
    (froot : ℕ → ℝ) (fconst : ℝ) (hc : |fconst - pdfConst| ≤ 1 / 2 ^ 24 * pdfConst) {D n : ℕ} (hD : 0 < D) (hD6 : D ≤ 6)
    (pts : Fin n → Fin D → ℝ) (hF : ∀ i d, IsMul32 (pts i d)) (ranges : List ℕ) (pairs : List (Fin n × Fin n))
    (hd : RangesDelimit ranges pairs) (bw radii : Fin D → ℝ) (hbw : ∀ d, 1 / 8 ≤ bw d ∧ bw d ≤ 8)
    (hrad : ∀ d, 1 / 2 ^ 100 ≤ radii d ∧ radii d ≤ 2 ^ 100)
    (hb : ∀ q ∈ pairs, ∑ d, ((pts q.1 d - pts q.2 d) / radii d) ^ 2 ≤ 1) (B Wb : ℕ) (hB : 0 < B) (hW : 0 < Wb)
    (out : ℕ → Rounded fl32)
    (hrun : PdfFwdA (pdfArgsFl fl32 fexp froot fconst pts pairs (fun i => ranges.getD i 0) bw radii)
      KDEMode.constant.value B Wb out) (i : Fin n) (hl : (pairs.filter (fun q => q.2 = i)).length ≤ 2 ^ 20) :
    |(out i.val).val - pdfOfPairs gauss pts bw radii .constant pairs i| ≤
      1 / 1000 * pdfOfPairs gauss pts bw radii .constant pairs i ∧
    ((i, i) ∈ pairs → 0 < (out i.val).val) := by
  have hN : NoUnderflow (D := D) (1 / 2 ^ 24) (1 / 2 ^ 150) (1 / 32) 8 bw radii := by
    have hb0 : ∀ d, 0 < bw d := fun d => lt_of_lt_of_le (by norm_num) (hbw d).1
    have hr0 : ∀ d, 0 < radii d := fun d => lt_of_lt_of_le (by positivity) (hrad d).1
    refine ⟨hb0, hr0, ?_, by norm_num, by norm_num, ?_, ?_, ?_, ?_, ?_⟩
    · intro d
      rw [inv_le_comm₀ (hb0 d) (by norm_num)]
      have := (hbw d).1
      norm_num at this ⊢
      linarith
    · intro d
      have : (1 / 8 : ℝ) ≤ (bw d)⁻¹ := by
        rw [le_inv_comm₀ (by norm_num) (hb0 d)]
        have := (hbw d).2
        norm_num at this ⊢
        linarith
      unfold pdfConst
      norm_num at this ⊢
      linarith
    · intro d
      have := (hbw d).2
      norm_num
      linarith
    · intro d
      have h := (hrad d).2
      calc 1 / 2 ^ 150 * radii d ≤ 1 / 2 ^ 150 * 2 ^ 100 := mul_le_mul_of_nonneg_left h (by positivity)
        _ ≤ 1 / 2 ^ 24 := by norm_num
    · intro d
      have h := (hrad d).1
      calc (1 : ℝ) / 2 ^ 150 ≤ 1 / 2 ^ 24 * (1 / 2 ^ 100) := by norm_num
        _ ≤ 1 / 2 ^ 24 * radii d := mul_le_mul_of_nonneg_left h (by positivity)
    · have h1 : ((1 : ℝ) / 32) ^ 6 ≤ (1 / 32) ^ D := pow_le_pow_of_le_one (by norm_num) (by norm_num) hD6
      have h2 : (1 : ℝ) / 3 ^ 32 ≤ Real.exp (-8 ^ 2 / 2) := by
        have e : (-8 ^ 2 / 2 : ℝ) = -((32 : ℕ) : ℝ) := by norm_num
        rw [e, Real.exp_neg, ← one_div]
        have h3 : Real.exp ((32 : ℕ) : ℝ) ≤ 3 ^ 32 := by
          have := Real.exp_one_lt_d9
          have e2 : Real.exp ((32 : ℕ) : ℝ) = Real.exp 1 ^ 32 := by rw [← Real.exp_nat_mul, mul_one]
          rw [e2]
          exact pow_le_pow_left₀ (Real.exp_pos 1).le (by linarith) 32
        exact one_div_le_one_div_of_le (Real.exp_pos _) h3
      calc (1 : ℝ) / 2 ^ 150 ≤ 1 / 2 ^ 24 * ((1 / 32) ^ 6 * (1 / 3 ^ 32)) := by norm_num
        _ ≤ _ := mul_le_mul_of_nonneg_left (mul_le_mul h1 h2 (by positivity) (by positivity)) (by positivity)
  have hlr : ((pairs.filter (fun q => q.2 = i)).length : ℝ) ≤ 2 ^ 20 := by exact_mod_cast hl
  have hmain := C155_density fl32_arith (by positivity) (by norm_num) (by positivity) (v := 1 / 2 ^ 22) (by positivity) fexp
    hexp froot fconst hc hD pts hF ranges pairs hd bw radii hN hb B Wb hB hW out hrun i (by
      calc _ ≤ (2 : ℝ) ^ 20 * (1 / 2 ^ 24) := mul_le_mul_of_nonneg_right hlr (by positivity)
        _ ≤ 1 := by norm_num)
  have hG : termFactor (1 / 2 ^ 24) (1 / 2 ^ 22) 8 D ≤ (1 + 1 / 10 ^ 4) ^ 6 := by
    unfold termFactor
    have h1 : Real.exp (18 * (1 / 2 ^ 24) * (8 + 1) ^ 2) ≤ 1 / (1 - 18 * (1 / 2 ^ 24) * (8 + 1) ^ 2) :=
      Real.exp_bound_div_one_sub_of_interval (by positivity) (by norm_num)
    have h2 : Real.exp (18 * (1 / 2 ^ 24) * (8 + 1) ^ 2) * (1 + 1 / 2 ^ 22 + 1 / 2 ^ 24) * (1 + 2 * (1 / 2 ^ 24)) ^ 5 ≤
        1 + 1 / 10 ^ 4 := by
      calc _ ≤ 1 / (1 - 18 * (1 / 2 ^ 24) * (8 + 1) ^ 2) * (1 + 1 / 2 ^ 22 + 1 / 2 ^ 24) * (1 + 2 * (1 / 2 ^ 24)) ^ 5 :=
            mul_le_mul_of_nonneg_right (mul_le_mul_of_nonneg_right h1 (by positivity)) (by positivity)
        _ ≤ _ := by norm_num
    refine (pow_le_pow_left₀ (by positivity) h2 D).trans (pow_le_pow_right₀ (by norm_num) hD6)
  have hlit : ((1 : ℝ) + 2 / 10 ^ 9) ^ D ≤ (1 + 2 / 10 ^ 9) ^ 6 := pow_le_pow_right₀ (by norm_num) hD6
  have hP : 0 ≤ pdfOfPairs gauss pts bw radii .constant pairs i := by
    unfold pdfOfPairs
    refine div_nonneg (List.sum_nonneg ?_) (Finset.prod_nonneg (fun d _ => (hN.bw_pos d).le))
    intro x hx
    obtain ⟨q, _, rfl⟩ := List.mem_map.mp hx
    unfold pairKernel
    refine Finset.prod_nonneg (fun d _ => ?_)
    unfold gauss
    positivity
  have hle : |(out i.val).val - pdfOfPairs gauss pts bw radii .constant pairs i| ≤
      1 / 1000 * pdfOfPairs gauss pts bw radii .constant pairs i := by
    refine hmain.trans (mul_le_mul_of_nonneg_right ?_ hP)
    have h1 : (1 : ℝ) + (7 * (1 / 2 ^ 24) + 14 * ((pairs.filter (fun q => q.2 = i)).length : ℝ) * (1 / 2 ^ 24) ^ 2) ≤
        1 + 1 / 10 ^ 6 := by
      have := mul_le_mul_of_nonneg_right hlr (show (0 : ℝ) ≤ 14 * (1 / 2 ^ 24) ^ 2 by positivity)
      norm_num at this ⊢
      linarith
    have h2 : (1 + (7 * (1 / 2 ^ 24) + 14 * ((pairs.filter (fun q => q.2 = i)).length : ℝ) * (1 / 2 ^ 24) ^ 2)) *
        termFactor (1 / 2 ^ 24) (1 / 2 ^ 22) 8 D * (1 + 2 / 10 ^ 9) ^ D ≤
        (1 + 1 / 10 ^ 6) * (1 + 1 / 10 ^ 4) ^ 6 * (1 + 2 / 10 ^ 9) ^ 6 := by
      refine mul_le_mul (mul_le_mul h1 hG ?_ (by positivity)) hlit (by positivity) (by positivity)
      unfold termFactor
      positivity
    have h3 : ((1 : ℝ) + 1 / 10 ^ 6) * (1 + 1 / 10 ^ 4) ^ 6 * (1 + 2 / 10 ^ 9) ^ 6 ≤ 1 + 1 / 1000 := by norm_num
    linarith
  refine ⟨hle, fun hi => ?_⟩
  have hpos : 0 < pdfOfPairs gauss pts bw radii .constant pairs i := by
    unfold pdfOfPairs
    refine div_pos ?_ (Finset.prod_pos (fun d _ => hN.bw_pos d))
    have hk : ∀ q : Fin n × Fin n, 0 < pairKernel gauss bw radii (pts q.1) (gatherPt pts q.2.val) := by
      intro q
      unfold pairKernel
      refine Finset.prod_pos (fun d _ => ?_)
      unfold gauss
      positivity
    have hmem : pairKernel gauss bw radii (pts i) (gatherPt pts i.val) ∈
        (pairs.filter (fun p => p.2.val = i.val)).map
          (fun p => pairKernel gauss bw radii (pts p.1) (gatherPt pts p.2.val)) :=
      List.mem_map.mpr ⟨(i, i), List.mem_filter.mpr ⟨hi, by simp⟩, rfl⟩
    refine lt_of_lt_of_le (hk (i, i)) (List.single_le_sum ?_ _ hmem)
    intro x hx
    obtain ⟨q, _, rfl⟩ := List.mem_map.mp hx
    exact (hk q).le
  have := (abs_le.mp hle).1
  linarith

/-- **C155, neighbours found by the search** with one radius for all dimensions. -/
theorem C155_search {k : ℕ} (hk : k + 2 ≤ 6) (dev : Device) (g : Grid (k + 2) ℝ) (radii : Fin (k + 2) → ℝ) (h : Nbh k ℝ)
    (hnew : Nbh.new dev g radii none = .ok h) (hsame : ∀ d, radii d = radii 0)
    (hrad : 1 / 2 ^ 100 ≤ radii 0 ∧ radii 0 ≤ 2 ^ 100) (hF : ∀ i d, IsMul32 (g.c.pts i d)) (bw : Fin (k + 2) → ℝ)
    (hbw : ∀ d, 1 / 8 ≤ bw d ∧ bw d ≤ 8) (fexp : ℝ → ℝ)
    (hexp : ∀ x, |fexp x - Real.exp x| ≤ 1 / 2 ^ 22 * Real.exp x + 1 / 2 ^ 150) (froot : ℕ → ℝ) (fconst : ℝ)
    (hc : |fconst - pdfConst| ≤ 1 / 2 ^ 24 * pdfConst) (B Wb : ℕ) (hB : 0 < B) (hW : 0 < Wb) (out : ℕ → Rounded fl32)
    (hrun : PdfFwdA (pdfArgsFl fl32 fexp froot fconst h.g.sortedPts h.nb.pairs (fun i => h.nb.ranges.getD i 0) bw h.radii)
      KDEMode.constant.value B Wb out) (i : Fin h.g.c.n)
    (hl : (h.nb.pairs.filter (fun q => q.2.val = i.val)).length ≤ 2 ^ 20) :
    |(out i.val).val - h.pdfSorted gauss bw .constant i| ≤ 1 / 1000 * h.pdfSorted gauss bw .constant i := by
  obtain ⟨e1, e2, e3, e4, hf⟩ := new_pairs hnew
  obtain ⟨g', radii', sample, eq', nb⟩ := h
  simp only at e1 e2 e3
  subst e1
  subst e2
  simp only [Option.getD_none] at e3
  subst e3
  have hd := C19_ranges_partition dev g' g'.sortedCloud radii' nb hf
  have hs := (C16_search_sound dev g' g'.sortedCloud radii' nb hf).1
  exact (C155_single_precision fexp hexp froot fconst hc (by omega) hk g'.sortedPts (fun i d => hF _ _) nb.ranges nb.pairs hd
    bw radii' hbw (fun d => by rw [hsame d]; exact hrad) (by
      intro q hq
      obtain ⟨_, h0, h1⟩ := hs q.1 q.2 hq
      have : ∀ d, ((g'.sortedPts q.1 d - g'.sortedPts q.2 d) / radii' d) ^ 2 =
          (g'.sortedPts q.1 d - g'.sortedPts q.2 d) * (g'.sortedPts q.1 d - g'.sortedPts q.2 d) * (radii' 0 * radii' 0)⁻¹ := by
        intro d
        rw [hsame d, div_pow, sq, sq, div_eq_mul_inv]
      rw [Finset.sum_congr rfl (fun d _ => this d), ← Finset.sum_mul, ← div_eq_mul_inv, div_le_one (by positivity)]
      exact le_of_lt h1) B Wb hB hW out hrun i (by
      refine le_trans (le_of_eq ?_) hl
      congr 1
      refine List.filter_congr (fun x _ => ?_)
      simp [Fin.ext_iff])).1

theorem exists_pdfFwdA {α : Type*} [Zero α] [One α] [Add α] [Sub α] [Mul α] {D : ℕ} (I : PdfInA D α) (mode B W : ℕ) :
    ∃ out, PdfFwdA I mode B W out :=
  ⟨_, fun _ => 0, _, Interleave.exists_seq _, rfl⟩

/-- Two points at distance one half, each other's neighbours, on the plane: the hypotheses are met with the correctly
rounded exponential function and literal. -/
example : ∃ out : ℕ → Rounded fl32, PdfFwdA (pdfArgsFl fl32 (fun x => fl32 (Real.exp x)) (fun n => fl32 (Real.sqrt n))
    (fl32 pdfConst) (fun (i : Fin 2) (d : Fin 2) => if i = 1 ∧ d = 0 then (1 / 2 : ℝ) else 0)
    [((0 : Fin 2), (0 : Fin 2)), (1, 0), (0, 1), (1, 1)] (fun i => [2, 4].getD i 0) (fun _ => 1 / 5) (fun _ => 1))
    KDEMode.constant.value 64 1 out ∧ 0 < (out 1).val := by
  obtain ⟨out, h⟩ := exists_pdfFwdA (pdfArgsFl fl32 (fun x => fl32 (Real.exp x)) (fun n => fl32 (Real.sqrt n))
    (fl32 pdfConst) (fun (i : Fin 2) (d : Fin 2) => if i = 1 ∧ d = 0 then (1 / 2 : ℝ) else 0)
    [((0 : Fin 2), (0 : Fin 2)), (1, 0), (0, 1), (1, 1)] (fun i => [2, 4].getD i 0) (fun _ => 1 / 5) (fun _ => 1))
    KDEMode.constant.value 64 1
  refine ⟨out, h, ?_⟩
  have hd : RangesDelimit [2, 4] [((0 : Fin 2), (0 : Fin 2)), (1, 0), (0, 1), (1, 1)] := by
    unfold RangesDelimit
    decide
  have := (C155_single_precision _ (by
    intro x
    have := fl32_arith.gen (Real.exp x)
    rw [abs_of_pos (Real.exp_pos x)] at this
    have hp := Real.exp_pos x
    have : (1 : ℝ) / 2 ^ 24 * Real.exp x ≤ 1 / 2 ^ 22 * Real.exp x := mul_le_mul_of_nonneg_right (by norm_num) hp.le
    linarith) _ (fl32 pdfConst) (by
    have hp : 0 < pdfConst := by unfold pdfConst; norm_num
    have hl : -1 ≤ Int.log 2 pdfConst - 1 + 1 + 1 := by
      have : (-2 : ℤ) ≤ Int.log 2 pdfConst := by
        rw [← Int.zpow_le_iff_le_log (by norm_num) hp]
        unfold pdfConst
        norm_num
      omega
    have h1 := fl32_err pdfConst
    rw [abs_of_pos hp, max_eq_left (by omega)] at h1
    have h2 := fl32_normal pdfConst hp.ne'
    rw [abs_of_pos hp] at h2
    exact h1.trans h2) (by norm_num) (by norm_num) _ (by
    intro i d
    split
    · refine ⟨2 ^ 148, ?_⟩
      push_cast
      norm_num
    · exact ⟨0, by simp⟩) _ _ hd _ _ (by intro d; norm_num) (by intro d; norm_num) (by
    intro q hq
    simp only [List.mem_cons, List.not_mem_nil, or_false] at hq
    rcases hq with rfl | rfl | rfl | rfl <;> norm_num [Fin.sum_univ_two]) 64 1 (by norm_num) (by norm_num) out h 1
    (by decide)).2 (by decide)
  exact this

end PC
