import Verif.RndCert
import Verif.CudaLimit
import Mathlib.Dynamics.PeriodicPts.Lemmas
import Mathlib.Data.Nat.Bitwise
import Mathlib.Tactic.IntervalCases
import Mathlib.Tactic.NormNum.Prime

/-!
# C142: the random streams of the threads
-/

set_option linter.unusedVariables false
set_option maxRecDepth 4000

namespace PC

/-! ### `wang_hash` is a bijection -/

theorem xorShr_twice (k : ℕ) (x : BitVec 32) :
    (x ^^^ (x >>> k)) ^^^ ((x ^^^ (x >>> k)) >>> k) = x ^^^ (x >>> (2 * k)) := by
  ext i hi
  simp only [BitVec.getElem_xor, BitVec.getElem_ushiftRight, BitVec.getLsbD_xor, BitVec.getLsbD_ushiftRight,
    show k + (k + i) = 2 * k + i by omega]
  cases x[i] <;> cases x.getLsbD (k + i) <;> cases x.getLsbD (2 * k + i) <;> rfl

theorem xorShr_big {k : ℕ} (hk : 32 ≤ k) (x : BitVec 32) : x ^^^ (x >>> k) = x := by
  ext i hi
  simp only [BitVec.getElem_xor, BitVec.getElem_ushiftRight]
  rw [BitVec.getLsbD_of_ge x (k + i) (by omega), Bool.xor_false]

theorem xorShr_injective (k : ℕ) (hk : 0 < k) : Function.Injective (fun x : BitVec 32 => x ^^^ (x >>> k)) := by
  by_cases h : 32 ≤ k
  · intro x y hxy
    simpa only [xorShr_big h] using hxy
  · intro x y hxy
    have : x ^^^ (x >>> (2 * k)) = y ^^^ (y >>> (2 * k)) := by
      rw [← xorShr_twice, ← xorShr_twice]
      simp only at hxy
      rw [hxy]
    exact xorShr_injective (2 * k) (by omega) this
termination_by 32 - k

theorem mulOdd_injective {a b : BitVec 32} (h : a * b = 1#32) : Function.Injective (fun x : BitVec 32 => x * a) := by
  intro x y hxy
  have : x * a * b = y * a * b := by
    simp only at hxy
    rw [hxy]
  rwa [BitVec.mul_assoc, BitVec.mul_assoc, h, BitVec.mul_one, BitVec.mul_one] at this

theorem wangHash_injective : Function.Injective wangHash := by
  intro x y h
  unfold wangHash at h
  dsimp only at h
  have h1 := xorShr_injective 15 (by omega) h
  have h2 := mulOdd_injective (a := 0x27d4eb2d#32) (b := 4218002597#32) (by decide) h1
  have h3 := xorShr_injective 4 (by omega) h2
  have h4 := mulOdd_injective (a := 9#32) (b := 954437177#32) (by decide) h3
  have h5 : (x ^^^ (x >>> 16)) = y ^^^ (y >>> 16) := by
    have e : ∀ z : BitVec 32, z ^^^ 61#32 ^^^ (z >>> 16) = (z ^^^ (z >>> 16)) ^^^ 61#32 := by
      intro z
      rw [BitVec.xor_assoc, BitVec.xor_comm 61#32, ← BitVec.xor_assoc]
    rw [e, e] at h4
    exact (BitVec.xor_left_inj _).1 h4
  exact xorShr_injective 16 (by omega) h5

/-! ### the generator as a linear map -/

/-- Sum modulo two of the columns selected by the binary digits. -/
def colApp : List ℕ → ℕ → ℕ
  | [], _ => 0
  | c :: cs, x => (x % 2 * c) ^^^ colApp cs (x / 2)

/-- Product of matrices given by columns. -/
def colMul (A B : List ℕ) : List ℕ := B.map (colApp A)

/-- Sum of matrices. -/
def colAdd (A B : List ℕ) : List ℕ := List.zipWith (· ^^^ ·) A B

theorem mod_mul_xor (x y c : ℕ) : (x ^^^ y) % 2 * c = (x % 2 * c) ^^^ (y % 2 * c) := by
  have h : (x ^^^ y) % 2 = (x % 2) ^^^ (y % 2) := by
    have := Nat.xor_mod_two_pow (a := x) (b := y) (n := 1)
    simpa using this
  rw [h]
  rcases Nat.mod_two_eq_zero_or_one x with hx | hx <;> rcases Nat.mod_two_eq_zero_or_one y with hy | hy <;>
    simp [hx, hy]

theorem div_two_xor (x y : ℕ) : (x ^^^ y) / 2 = (x / 2) ^^^ (y / 2) := by
  have := Nat.xor_div_two_pow (a := x) (b := y) (n := 1)
  simpa using this

theorem colApp_xor (M : List ℕ) (x y : ℕ) : colApp M (x ^^^ y) = colApp M x ^^^ colApp M y := by
  induction M generalizing x y with
  | nil => simp [colApp]
  | cons c cs ih =>
    simp only [colApp]
    rw [mod_mul_xor, div_two_xor, ih]
    ac_rfl

theorem colApp_zero (M : List ℕ) : colApp M 0 = 0 := by
  induction M with
  | nil => rfl
  | cons c cs ih => simp [colApp, ih]

theorem colApp_mul (A B : List ℕ) (x : ℕ) : colApp (colMul A B) x = colApp A (colApp B x) := by
  induction B generalizing x with
  | nil => simp [colMul, colApp, colApp_zero]
  | cons c cs ih =>
    have ih' := ih (x / 2)
    unfold colMul at ih' ⊢
    simp only [List.map_cons, colApp]
    rw [ih', colApp_xor]
    congr 1
    rcases Nat.mod_two_eq_zero_or_one x with hx | hx <;> simp [hx, colApp_zero]

theorem colApp_add (A B : List ℕ) (h : A.length = B.length) (x : ℕ) :
    colApp (colAdd A B) x = colApp A x ^^^ colApp B x := by
  induction A generalizing B x with
  | nil =>
    cases B with
    | nil => simp [colApp, colAdd]
    | cons b B => simp at h
  | cons a A ih =>
    cases B with
    | nil => simp at h
    | cons b B =>
      have ih' := ih B (by simpa using h) (x / 2)
      unfold colAdd at ih' ⊢
      simp only [List.zipWith_cons_cons, colApp]
      rw [ih']
      rcases Nat.mod_two_eq_zero_or_one x with hx | hx <;> simp [hx]
      ac_rfl

/-- A linear map is determined by its values at the powers of two. -/
theorem linear_eq_colApp (n : ℕ) : ∀ (f : ℕ → ℕ), f 0 = 0 → (∀ x y, f (x ^^^ y) = f x ^^^ f y) → ∀ x < 2 ^ n,
    f x = colApp ((List.range n).map (fun i => f (2 ^ i))) x := by
  induction n with
  | zero =>
    intro f h0 hf x hx
    have : x = 0 := by simpa using hx
    subst this
    simpa [colApp] using h0
  | succ n ih =>
    intro f h0 hf x hx
    have hsplit : x = (x % 2) ^^^ (2 * (x / 2)) := by
      apply Nat.eq_of_testBit_eq
      intro i
      rw [Nat.testBit_xor]
      cases i with
      | zero => simp [Nat.testBit_zero]
      | succ i =>
        rw [Nat.testBit_succ, Nat.testBit_succ, Nat.testBit_succ]
        have : x % 2 / 2 = 0 := by omega
        simp [this]
    have hg := ih (fun y => f (2 * y)) (by simpa using h0) (fun a b => by
      have : 2 * (a ^^^ b) = (2 * a) ^^^ (2 * b) := by
        have := Nat.shiftLeft_xor_distrib (a := a) (b := b) (i := 1)
        simpa [Nat.shiftLeft_eq, Nat.mul_comm] using this
      simp only [this, hf]) (x / 2) (by rw [pow_succ] at hx; omega)
    rw [List.range_succ_eq_map, List.map_cons, List.map_map]
    simp only [colApp]
    conv_lhs => rw [hsplit, hf]
    congr 1
    · rcases Nat.mod_two_eq_zero_or_one x with hx | hx <;> simp [hx, h0]
    · rw [hg]
      congr 1
      refine List.map_congr_left fun i _ => ?_
      simp only [Function.comp_apply, pow_succ]
      rw [Nat.mul_comm]

theorem randXorshift_xor (x y : BitVec 32) : randXorshift (x ^^^ y) = randXorshift x ^^^ randXorshift y := by
  have hl : ∀ (k : ℕ) (a b : BitVec 32), (a ^^^ b) ^^^ ((a ^^^ b) <<< k) = (a ^^^ (a <<< k)) ^^^ (b ^^^ (b <<< k)) := by
    intro k a b
    rw [BitVec.shiftLeft_xor_distrib]
    ac_rfl
  have hr : ∀ (k : ℕ) (a b : BitVec 32), (a ^^^ b) ^^^ ((a ^^^ b) >>> k) = (a ^^^ (a >>> k)) ^^^ (b ^^^ (b >>> k)) := by
    intro k a b
    rw [BitVec.ushiftRight_xor_distrib]
    ac_rfl
  unfold randXorshift
  dsimp only
  rw [hl 13 x y, hr 17 _ _]
  exact hl 5 _ _

/-- `M` is the matrix of `e` steps of the generator. -/
def XsPow (e : ℕ) (M : List ℕ) : Prop := ∀ x : BitVec 32, (randXorshift^[e] x).toNat = colApp M x.toNat

theorem XsPow.mul {a b : ℕ} {A B : List ℕ} (hA : XsPow a A) (hB : XsPow b B) (e : ℕ) (C : List ℕ) (he : e = a + b)
    (h : colMul A B = C) : XsPow e C := by
  intro x
  rw [he, Function.iterate_add_apply, hA, hB, ← h, colApp_mul]

theorem xsPow_zero : XsPow 1 xs0 := by
  intro x
  have h := linear_eq_colApp 32 (fun n => (randXorshift (BitVec.ofNat 32 n)).toNat) (by decide)
    (fun a b => by simp only [BitVec.ofNat_xor, randXorshift_xor, BitVec.toNat_xor]) x.toNat x.isLt
  have hm : (List.range 32).map (fun i => (randXorshift (BitVec.ofNat 32 (2 ^ i))).toNat) = xs0 := by decide +kernel
  rw [hm] at h
  rw [Function.iterate_one, ← h, BitVec.ofNat_toNat, BitVec.setWidth_eq]

theorem xsPow1 : XsPow (2 ^ 1) xs1 :=
  xsPow_zero.mul xsPow_zero _ _ (by norm_num) (by decide +kernel)

theorem xsPow2 : XsPow (2 ^ 2) xs2 :=
  xsPow1.mul xsPow1 _ _ (by norm_num) (by decide +kernel)

theorem xsPow3 : XsPow (2 ^ 3) xs3 :=
  xsPow2.mul xsPow2 _ _ (by norm_num) (by decide +kernel)

theorem xsPow4 : XsPow (2 ^ 4) xs4 :=
  xsPow3.mul xsPow3 _ _ (by norm_num) (by decide +kernel)

theorem xsPow5 : XsPow (2 ^ 5) xs5 :=
  xsPow4.mul xsPow4 _ _ (by norm_num) (by decide +kernel)

theorem xsPow6 : XsPow (2 ^ 6) xs6 :=
  xsPow5.mul xsPow5 _ _ (by norm_num) (by decide +kernel)

theorem xsPow7 : XsPow (2 ^ 7) xs7 :=
  xsPow6.mul xsPow6 _ _ (by norm_num) (by decide +kernel)

theorem xsPow8 : XsPow (2 ^ 8) xs8 :=
  xsPow7.mul xsPow7 _ _ (by norm_num) (by decide +kernel)

theorem xsPow9 : XsPow (2 ^ 9) xs9 :=
  xsPow8.mul xsPow8 _ _ (by norm_num) (by decide +kernel)

theorem xsPow10 : XsPow (2 ^ 10) xs10 :=
  xsPow9.mul xsPow9 _ _ (by norm_num) (by decide +kernel)

theorem xsPow11 : XsPow (2 ^ 11) xs11 :=
  xsPow10.mul xsPow10 _ _ (by norm_num) (by decide +kernel)

theorem xsPow12 : XsPow (2 ^ 12) xs12 :=
  xsPow11.mul xsPow11 _ _ (by norm_num) (by decide +kernel)

theorem xsPow13 : XsPow (2 ^ 13) xs13 :=
  xsPow12.mul xsPow12 _ _ (by norm_num) (by decide +kernel)

theorem xsPow14 : XsPow (2 ^ 14) xs14 :=
  xsPow13.mul xsPow13 _ _ (by norm_num) (by decide +kernel)

theorem xsPow15 : XsPow (2 ^ 15) xs15 :=
  xsPow14.mul xsPow14 _ _ (by norm_num) (by decide +kernel)

theorem xsPow16 : XsPow (2 ^ 16) xs16 :=
  xsPow15.mul xsPow15 _ _ (by norm_num) (by decide +kernel)

theorem xsPow17 : XsPow (2 ^ 17) xs17 :=
  xsPow16.mul xsPow16 _ _ (by norm_num) (by decide +kernel)

theorem xsPow18 : XsPow (2 ^ 18) xs18 :=
  xsPow17.mul xsPow17 _ _ (by norm_num) (by decide +kernel)

theorem xsPow19 : XsPow (2 ^ 19) xs19 :=
  xsPow18.mul xsPow18 _ _ (by norm_num) (by decide +kernel)

theorem xsPow20 : XsPow (2 ^ 20) xs20 :=
  xsPow19.mul xsPow19 _ _ (by norm_num) (by decide +kernel)

theorem xsPow21 : XsPow (2 ^ 21) xs21 :=
  xsPow20.mul xsPow20 _ _ (by norm_num) (by decide +kernel)

theorem xsPow22 : XsPow (2 ^ 22) xs22 :=
  xsPow21.mul xsPow21 _ _ (by norm_num) (by decide +kernel)

theorem xsPow23 : XsPow (2 ^ 23) xs23 :=
  xsPow22.mul xsPow22 _ _ (by norm_num) (by decide +kernel)

theorem xsPow24 : XsPow (2 ^ 24) xs24 :=
  xsPow23.mul xsPow23 _ _ (by norm_num) (by decide +kernel)

theorem xsPow25 : XsPow (2 ^ 25) xs25 :=
  xsPow24.mul xsPow24 _ _ (by norm_num) (by decide +kernel)

theorem xsPow26 : XsPow (2 ^ 26) xs26 :=
  xsPow25.mul xsPow25 _ _ (by norm_num) (by decide +kernel)

theorem xsPow27 : XsPow (2 ^ 27) xs27 :=
  xsPow26.mul xsPow26 _ _ (by norm_num) (by decide +kernel)

theorem xsPow28 : XsPow (2 ^ 28) xs28 :=
  xsPow27.mul xsPow27 _ _ (by norm_num) (by decide +kernel)

theorem xsPow29 : XsPow (2 ^ 29) xs29 :=
  xsPow28.mul xsPow28 _ _ (by norm_num) (by decide +kernel)

theorem xsPow30 : XsPow (2 ^ 30) xs30 :=
  xsPow29.mul xsPow29 _ _ (by norm_num) (by decide +kernel)

theorem xsPow31 : XsPow (2 ^ 31) xs31 :=
  xsPow30.mul xsPow30 _ _ (by norm_num) (by decide +kernel)

theorem xsPow32 : XsPow (2 ^ 32) xs0 :=
  xsPow31.mul xsPow31 _ _ (by norm_num) (by decide +kernel)

theorem xsPowA : XsPow 0x00010001 xsA :=
  xsPow16.mul xsPow_zero _ _ (by norm_num) (by decide +kernel)

theorem xsPowB : XsPow 0x01000100 xsB :=
  xsPow24.mul xsPow8 _ _ (by norm_num) (by decide +kernel)

theorem xsPowC : XsPow 0x01010101 xsC :=
  xsPowA.mul xsPowB _ _ (by norm_num) (by decide +kernel)

theorem xsPowD : XsPow 0x10001000 xsD :=
  xsPow28.mul xsPow12 _ _ (by norm_num) (by decide +kernel)

theorem xsPowE : XsPow 0x00100010 xsE :=
  xsPow20.mul xsPow4 _ _ (by norm_num) (by decide +kernel)

theorem xsPowF : XsPow 0x10101010 xsF :=
  xsPowD.mul xsPowE _ _ (by norm_num) (by decide +kernel)

theorem xsPowG : XsPow 0x11111111 xsG :=
  xsPowC.mul xsPowF _ _ (by norm_num) (by decide +kernel)

theorem xsPowH : XsPow 0x22222222 xsH :=
  xsPowG.mul xsPowG _ _ (by norm_num) (by decide +kernel)

theorem xsPowI : XsPow 0x44444444 xsI :=
  xsPowH.mul xsPowH _ _ (by norm_num) (by decide +kernel)

theorem xsPowJ : XsPow 0x55555555 xsJ :=
  xsPowI.mul xsPowG _ _ (by norm_num) (by decide +kernel)


/-- Two powers whose difference is invertible agree only at 0. -/
theorem xsPow_agree {a b : ℕ} {A B V : List ℕ} (hA : XsPow a A) (hB : XsPow b B) (hl : A.length = B.length)
    (hV : colMul V (colAdd A B) = (List.range 32).map (fun i => 2 ^ i)) {x : BitVec 32}
    (h : randXorshift^[a] x = randXorshift^[b] x) : x = 0 := by
  have h1 : colApp A x.toNat = colApp B x.toNat := by rw [← hA, ← hB, h]
  have h2 : colApp (colAdd A B) x.toNat = 0 := by rw [colApp_add A B hl, h1, Nat.xor_self]
  have h3 := colApp_mul V (colAdd A B) x.toNat
  rw [h2, colApp_zero, hV, ← linear_eq_colApp 32 (fun n => n) rfl (fun _ _ => rfl) x.toNat x.isLt] at h3
  exact BitVec.eq_of_toNat_eq h3

theorem randXorshift_zero : randXorshift 0 = 0 := by decide

theorem randXorshift_iter_zero (n : ℕ) : randXorshift^[n] 0 = 0 := Function.iterate_fixed randXorshift_zero n

theorem randXorshift_injective : Function.Injective randXorshift := by
  intro x y h
  have h0 : randXorshift (x ^^^ y) = 0 := by rw [randXorshift_xor, h, BitVec.xor_self]; rfl
  have h1 : randXorshift^[2 ^ 16] (x ^^^ y) = randXorshift^[1] (x ^^^ y) := by
    rw [show (2 : ℕ) ^ 16 = (2 ^ 16 - 1) + 1 by norm_num, Function.iterate_succ_apply, h0, randXorshift_iter_zero,
      Function.iterate_one, h0]
  have h2 := xsPow_agree (V := xsInv65537) xsPow16 xsPow_zero (by decide) (by decide +kernel) h1
  exact BitVec.xor_eq_zero_iff.1 h2

theorem randXorshift_iter_injective (n : ℕ) : Function.Injective randXorshift^[n] := randXorshift_injective.iterate n

theorem randXorshift_return (x : BitVec 32) : randXorshift^[2 ^ 32 - 1] x = x := by
  apply randXorshift_injective
  rw [← Function.iterate_succ_apply' randXorshift (2 ^ 32 - 1)]
  apply BitVec.eq_of_toNat_eq
  rw [show (2 ^ 32 - 1 : ℕ).succ = 2 ^ 32 by norm_num, xsPow32 x, ← xsPow_zero x, Function.iterate_one]

theorem iter_of_sub {a b d : ℕ} (h : a = d + b) {x : BitVec 32} (hx : randXorshift^[d] x = x) :
    randXorshift^[a] x = randXorshift^[b] x := by
  rw [h, Nat.add_comm, Function.iterate_add_apply, hx]

/-- Every state but 0 lies on one cycle through all of them. -/
theorem randXorshift_minimalPeriod {x : BitVec 32} (hx : x ≠ 0) :
    Function.minimalPeriod randXorshift x = 2 ^ 32 - 1 := by
  have hper : Function.IsPeriodicPt randXorshift (2 ^ 32 - 1) x := randXorshift_return x
  have hdvd := hper.minimalPeriod_dvd
  set m := Function.minimalPeriod randXorshift x with hm
  obtain ⟨q, hq⟩ := hdvd
  by_contra hne
  have hq1 : q ≠ 1 := by
    rintro rfl
    exact hne (by omega)
  obtain ⟨p, hp, hpq⟩ := Nat.exists_prime_and_dvd hq1
  have hpd : p ∣ 2 ^ 32 - 1 := hpq.trans ⟨m, by rw [hq, Nat.mul_comm]⟩
  have hmem : p = 3 ∨ p = 5 ∨ p = 17 ∨ p = 257 ∨ p = 65537 := by
    rw [show (2 ^ 32 - 1 : ℕ) = 3 * (5 * (17 * (257 * 65537))) by norm_num] at hpd
    have pr : ∀ r : ℕ, r.Prime → p ∣ r → p = r := fun r hr h => (Nat.prime_dvd_prime_iff_eq hp hr).1 h
    rcases (Nat.Prime.dvd_mul hp).1 hpd with h | h
    · exact Or.inl (pr _ (by norm_num) h)
    rcases (Nat.Prime.dvd_mul hp).1 h with h | h
    · exact Or.inr (Or.inl (pr _ (by norm_num) h))
    rcases (Nat.Prime.dvd_mul hp).1 h with h | h
    · exact Or.inr (Or.inr (Or.inl (pr _ (by norm_num) h)))
    rcases (Nat.Prime.dvd_mul hp).1 h with h | h
    · exact Or.inr (Or.inr (Or.inr (Or.inl (pr _ (by norm_num) h))))
    · exact Or.inr (Or.inr (Or.inr (Or.inr (pr _ (by norm_num) h))))
  obtain ⟨r, rfl⟩ := hpq
  have hd : ∀ d, (2 ^ 32 - 1 : ℕ) = p * d → randXorshift^[d] x = x := by
    intro d hd
    have : d = m * r := by
      apply Nat.eq_of_mul_eq_mul_left hp.pos
      rw [← hd, hq]
      ring
    rw [this]
    exact (Function.isPeriodicPt_minimalPeriod randXorshift x).mul_const r
  apply hx
  rcases hmem with rfl | rfl | rfl | rfl | rfl
  · exact xsPow_agree (V := xsInv3) (a := 0x55555555) (b := 0) (B := (List.range 32).map (fun i => 2 ^ i)) xsPowJ
      (fun y => linear_eq_colApp 32 (fun n => n) rfl (fun _ _ => rfl) y.toNat y.isLt) (by decide) (by decide +kernel)
      (iter_of_sub (d := 1431655765) (by norm_num) (hd _ (by norm_num)))
  · exact xsPow_agree (V := xsInv5) xsPowI xsPowG (by decide) (by decide +kernel)
      (iter_of_sub (d := 858993459) (by norm_num) (hd _ (by norm_num)))
  · exact xsPow_agree (V := xsInv17) xsPowF xsPowC (by decide) (by decide +kernel)
      (iter_of_sub (d := 252645135) (by norm_num) (hd _ (by norm_num)))
  · exact xsPow_agree (V := xsInv257) xsPowB xsPowA (by decide) (by decide +kernel)
      (iter_of_sub (d := 16711935) (by norm_num) (hd _ (by norm_num)))
  · exact xsPow_agree (V := xsInv65537) xsPow16 xsPow_zero (by decide) (by decide +kernel)
      (iter_of_sub (d := 65535) (by norm_num) (hd _ (by norm_num)))

/-! ### C142 -/

theorem threadSeed_injective (time : BitVec 32) {t t' : ℕ} (ht : t < 2 ^ 32) (ht' : t' < 2 ^ 32)
    (h : threadSeed time t = threadSeed time t') : t = t' := by
  have h1 := wangHash_injective h
  rw [BitVec.add_right_inj] at h1
  have h2 := congrArg BitVec.toNat h1
  rwa [BitVec.toNat_ofNat, BitVec.toNat_ofNat, Nat.mod_eq_of_lt ht, Nat.mod_eq_of_lt ht'] at h2

/-- After the same number of draws no two threads of a launch are in the same state. -/
theorem C142_threads_differ (time : BitVec 32) {t t' : ℕ} (ht : t < 2 ^ 32) (ht' : t' < 2 ^ 32) (hne : t ≠ t') (n : ℕ) :
    threadState time t n ≠ threadState time t' n :=
  fun h => hne (threadSeed_injective time ht ht' (randXorshift_iter_injective n h))

/-- The one value from which the generator does not move is hashed from 61. -/
theorem C142_zero_seed (time : BitVec 32) (t : ℕ) : threadSeed time t = 0 ↔ time + BitVec.ofNat 32 t = 61#32 := by
  constructor
  · intro h
    exact wangHash_injective (h.trans (by decide))
  · intro h
    unfold threadSeed
    rw [h]
    decide

/-- A thread with another seed repeats its numbers after exactly `2^32 - 1` draws, not before. -/
theorem C142_period {time : BitVec 32} {t : ℕ} (h : time + BitVec.ofNat 32 t ≠ 61#32) (n n' : ℕ) :
    threadState time t n = threadState time t n' ↔ n % (2 ^ 32 - 1) = n' % (2 ^ 32 - 1) := by
  have h0 : threadSeed time t ≠ 0 := fun h' => h ((C142_zero_seed time t).1 h')
  unfold threadState
  have hp := randXorshift_minimalPeriod h0
  have hlt : ∀ k, k % (2 ^ 32 - 1) < Function.minimalPeriod randXorshift (threadSeed time t) := by
    intro k
    rw [hp]
    exact Nat.mod_lt _ (by norm_num)
  rw [← Function.iterate_mod_minimalPeriod_eq (n := n), ← Function.iterate_mod_minimalPeriod_eq (n := n'), hp]
  exact Function.iterate_eq_iterate_iff_of_lt_minimalPeriod (hlt n) (hlt n')

/-- A thread whose number and launch second add up to 61 draws 0 for ever; there is one such number for every second. -/
theorem C142_stuck (time : BitVec 32) : ∃ t < 2 ^ 32, ∀ n, threadState time t n = 0 := by
  refine ⟨(61#32 - time).toNat, (61#32 - time).isLt, fun n => ?_⟩
  have : threadSeed time (61#32 - time).toNat = 0 := by
    rw [C142_zero_seed, BitVec.ofNat_toNat, BitVec.setWidth_eq, BitVec.add_comm, BitVec.sub_add_cancel]
  unfold threadState
  rw [this, randXorshift_iter_zero]

/-- Property: in every launch every thread draws at least two different numbers. -/
theorem C142_moves_false :
    ¬ ∀ (time : BitVec 32) (t : ℕ), t < 2 ^ 32 → ∃ n, threadState time t (n + 1) ≠ threadState time t n := by
  intro h
  obtain ⟨t, ht, hs⟩ := C142_stuck 61#32
  obtain ⟨n, hn⟩ := h 61#32 t ht
  exact hn ((hs _).trans (hs _).symm)

/-- From the second 62 up to the end of the 32 bit clock less the number of threads, every thread moves through all
`2^32 - 1` states.  Missing: the seconds at which one thread is stuck (`C142_moves_false`). -/
theorem C142_moves_partial {time : BitVec 32} {T : ℕ} (h1 : 61 < time.toNat) (h2 : time.toNat + T ≤ 2 ^ 32 + 61)
    {t : ℕ} (ht : t < T) (n n' : ℕ) :
    threadState time t n = threadState time t n' ↔ n % (2 ^ 32 - 1) = n' % (2 ^ 32 - 1) := by
  apply C142_period
  intro h
  have h3 := congrArg BitVec.toNat h
  rw [BitVec.toNat_add, BitVec.toNat_ofNat] at h3
  have : (61#32).toNat = 61 := by decide
  rw [this] at h3
  by_cases hb : t < 2 ^ 32
  · rw [Nat.mod_eq_of_lt hb] at h3
    by_cases hc : time.toNat + t < 2 ^ 32
    · rw [Nat.mod_eq_of_lt hc] at h3
      omega
    · rw [Nat.mod_eq_sub_mod (by omega), Nat.mod_eq_of_lt (by have := time.isLt; omega)] at h3
      omega
  · omega

/-- A launch one second later gives thread `t` the numbers of thread `t + 1`. -/
theorem C142_next_second (time : BitVec 32) (t n : ℕ) : threadState (time + 1#32) t n = threadState time (t + 1) n := by
  unfold threadState threadSeed
  rw [show time + 1#32 + BitVec.ofNat 32 t = time + BitVec.ofNat 32 (t + 1) by
    rw [BitVec.add_assoc, Nat.add_comm t 1, BitVec.ofNat_add]]

/-- Property: launches in different seconds share no stream. -/
theorem C142_launches_false :
    ¬ ∀ (time time' : BitVec 32), time ≠ time' → ∀ t t', t < 2 ^ 31 → t' < 2 ^ 31 →
      ∃ n, threadState time t n ≠ threadState time' t' n := by
  intro h
  obtain ⟨n, hn⟩ := h (1700000000#32 + 1#32) 1700000000#32 (by decide) 0 1 (by norm_num) (by norm_num)
  exact hn (C142_next_second _ _ _)

theorem stream_image {time : BitVec 32} {t : ℕ} (h : time + BitVec.ofNat 32 t ≠ 61#32) :
    Set.InjOn (fun n => (threadState time t n).toNat) (Finset.range (2 ^ 32 - 1)) ∧
      (Finset.range (2 ^ 32 - 1)).image (fun n => (threadState time t n).toNat) = Finset.Icc 1 (2 ^ 32 - 1) := by
  have hinj : Set.InjOn (fun n => (threadState time t n).toNat) (Finset.range (2 ^ 32 - 1)) := by
    intro a ha b hb hab
    rw [Finset.coe_range, Set.mem_Iio] at ha hb
    have := (C142_period h a b).1 (BitVec.eq_of_toNat_eq hab)
    rwa [Nat.mod_eq_of_lt ha, Nat.mod_eq_of_lt hb] at this
  refine ⟨hinj, Finset.eq_of_subset_of_card_le ?_ ?_⟩
  · intro v hv
    rw [Finset.mem_image] at hv
    obtain ⟨n, hn, rfl⟩ := hv
    rw [Finset.mem_Icc]
    have h1 := (threadState time t n).isLt
    refine ⟨?_, by omega⟩
    rw [Nat.one_le_iff_ne_zero]
    intro h0
    have hz : threadState time t n = randXorshift^[n] 0 := by
      rw [randXorshift_iter_zero]
      exact BitVec.eq_of_toNat_eq h0
    exact h ((C142_zero_seed time t).1 (randXorshift_iter_injective n hz))
  · rw [Finset.card_image_of_injOn hinj, Finset.card_range, Nat.card_Icc, Nat.add_sub_cancel]

/-- Every number but 0 is drawn, by every thread that is not stuck, exactly once in a period. -/
theorem C142_all_values {time : BitVec 32} {t : ℕ} (h : time + BitVec.ofNat 32 t ≠ 61#32) {v : BitVec 32} (hv : v ≠ 0) :
    ∃! n, n < 2 ^ 32 - 1 ∧ threadState time t n = v := by
  obtain ⟨hinj, him⟩ := stream_image h
  have hm : v.toNat ∈ Finset.Icc 1 (2 ^ 32 - 1) := by
    rw [Finset.mem_Icc]
    have h1 := v.isLt
    refine ⟨?_, by omega⟩
    rw [Nat.one_le_iff_ne_zero]
    exact fun h0 => hv (BitVec.eq_of_toNat_eq h0)
  rw [← him, Finset.mem_image] at hm
  obtain ⟨n, hn, hnv⟩ := hm
  refine ⟨n, ⟨Finset.mem_range.1 hn, BitVec.eq_of_toNat_eq hnv⟩, ?_⟩
  rintro n' ⟨hn', rfl⟩
  refine hinj ?_ ?_ hnv.symm
  · rw [Finset.coe_range]
    exact hn'
  · exact Finset.mem_coe.2 hn

theorem card_large {N m : ℕ} (hm : m ≤ N) (f : ℕ → ℕ) (hinj : Set.InjOn f (Finset.range N))
    (him : (Finset.range N).image f = Finset.Icc 1 N) :
    ((Finset.range N).filter (fun n => N - m < f n)).card = m := by
  have h1 : ((Finset.range N).filter (fun n => N - m < f n)).image f = Finset.Ioc (N - m) N := by
    ext v
    rw [Finset.mem_image, Finset.mem_Ioc]
    constructor
    · rintro ⟨n, hn, rfl⟩
      rw [Finset.mem_filter] at hn
      have : f n ∈ Finset.Icc 1 N := by
        rw [← him]
        exact Finset.mem_image_of_mem f hn.1
      exact ⟨hn.2, (Finset.mem_Icc.1 this).2⟩
    · rintro ⟨h1, h2⟩
      have : v ∈ (Finset.range N).image f := by
        rw [him, Finset.mem_Icc]
        exact ⟨by omega, h2⟩
      obtain ⟨n, hn, rfl⟩ := Finset.mem_image.1 this
      exact ⟨n, Finset.mem_filter.2 ⟨hn, h1⟩, rfl⟩
  have h2 := congrArg Finset.card h1
  rw [Finset.card_image_of_injOn, Nat.card_Ioc] at h2
  · omega
  · intro a ha b hb
    exact hinj (Finset.mem_coe.2 (Finset.mem_filter.1 ha).1) (Finset.mem_coe.2 (Finset.mem_filter.1 hb).1)

/-- In a period a thread draws 1.0 exactly 128 times, 0.0 otherwise. -/
theorem C142_ones {time : BitVec 32} {t : ℕ} (h : time + BitVec.ofNat 32 t ≠ 61#32) :
    ((Finset.range (2 ^ 32 - 1)).filter (fun n => seedToFloat (threadState time t n).toNat = 1)).card = 128 := by
  obtain ⟨hinj, him⟩ := stream_image h
  refine Eq.trans (congrArg Finset.card (Finset.filter_congr fun n _ => ?_)) (card_large (m := 128) (by norm_num) _ hinj him)
  unfold seedToFloat
  have := (threadState time t n).isLt
  split <;> constructor <;> intro h' <;> omega

/-- The state before the largest number. -/
theorem stream_pred : randXorshift 1584200935#32 = 4294967295#32 := by decide

/-- Within `2^32` draws every thread that is not stuck has an accepted draw whose position lies one before the range of
its sample, whatever the limit and the number of neighbours. -/
theorem C142_outside {time : BitVec 32} {t : ℕ} (h : time + BitVec.ofNat 32 t ≠ 61#32) :
    ∃ n < 2 ^ 32 - 1, ∀ m count pt sample : ℕ, 0 < m → 0 < count →
      (LimItem.drawn m count pt sample (threadState time t n).toNat (threadState time t (n + 1)).toNat).accept = true ∧
      (LimItem.drawn m count pt sample (threadState time t n).toNat (threadState time t (n + 1)).toNat).back = m + 1 := by
  obtain ⟨n, ⟨hn, hs⟩, _⟩ := C142_all_values h (v := 1584200935#32) (by decide)
  refine ⟨n, hn, fun m count pt sample hm hc => ?_⟩
  have hs' : threadState time t (n + 1) = 4294967295#32 := by
    unfold threadState at hs ⊢
    rw [Function.iterate_succ_apply', hs, stream_pred]
  rw [hs, hs']
  have e1 : seedToFloat (1584200935#32).toNat = 0 := by decide
  have e2 : seedToFloat (4294967295#32).toNat = 1 := by decide
  unfold LimItem.drawn
  rw [e1, e2]
  dsimp only
  constructor
  · rw [decide_eq_true_eq, Nat.cast_zero]
    positivity
  · omega

/-- Thread 5 of a launch in November 2023 is not stuck. -/
example : 1700000000#32 + BitVec.ofNat 32 5 ≠ 61#32 := by decide

end PC
