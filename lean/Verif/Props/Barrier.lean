import Verif.Barrier
import Verif.CudaScanLemmas2
import Verif.CudaProjLemmas

/-!
# C123: all threads of a block execute the same barriers
-/

set_option linter.unusedVariables false

namespace PC

theorem strideLoop_length {T N : ℕ} (hT : 0 < T) (cur : ℕ) : (strideLoop T N cur).length = (N - cur + (T - 1)) / T := by
  induction hm : N - cur using Nat.strong_induction_on generalizing cur with
  | _ m ih =>
    rw [strideLoop]
    by_cases h : cur < N ∧ 0 < T
    · rw [dif_pos h, List.length_cons, ih (N - (cur + T)) (by omega) (cur + T) rfl]
      by_cases h2 : T ≤ m
      · rw [show m + (T - 1) = (m - T + (T - 1)) + T by omega, Nat.add_div_right _ hT, show N - (cur + T) = m - T by omega]
      · rw [show N - (cur + T) = 0 by omega, Nat.zero_add, Nat.div_eq_of_lt (by omega)]
        rw [show m + (T - 1) = (m - 1) + T by omega, Nat.add_div_right _ hT, Nat.div_eq_of_lt (by omega)]
    · rw [dif_neg h, List.length_nil, show m = 0 by omega, Nat.zero_add, Nat.div_eq_of_lt (by omega)]

theorem flatMap_const_eq {α β : Type*} {l l' : List α} {x : List β} (h : l.length = l'.length) :
    l.flatMap (fun _ => x) = l'.flatMap (fun _ => x) := by
  induction l generalizing l' with
  | nil => cases l' with
    | nil => rfl
    | cons _ _ => simp at h
  | cons a l ih => cases l' with
    | nil => simp at h
    | cons b l' => rw [List.flatMap_cons, List.flatMap_cons, ih (by simpa using h)]

theorem flatMap_const_length {α β : Type*} (l : List α) (x : List β) :
    (l.flatMap (fun _ => x)).length = l.length * x.length := by
  induction l with
  | nil => simp
  | cons a l ih => rw [List.flatMap_cons, List.length_append, ih, List.length_cons]; ring

/-- A loop with stride over `N` elements, distributed over `TB` blocks of `B` threads: all threads of
a block make the same number of turns exactly if the block size divides `N`. -/
theorem stride_uniform_iff {B TB N : ℕ} (hB : 0 < B) (hT : 0 < TB) :
    (∀ b < TB, ∀ t < B, ∀ t' < B, (strideLoop (TB * B) N (b * B + t)).length =
      (strideLoop (TB * B) N (b * B + t')).length) ↔ B ∣ N := by
  have hTB : 0 < TB * B := Nat.mul_pos hT hB
  constructor
  · intro h
    by_contra hd
    have hr : 0 < N % B := Nat.pos_of_ne_zero (fun e => hd (Nat.dvd_of_mod_eq_zero e))
    have hlt : N % B < B := Nat.mod_lt _ hB
    have hN : N = N / B * B + N % B := by rw [Nat.mul_comm]; exact (Nat.div_add_mod N B).symm
    have hq : N / B = N / B / TB * TB + N / B % TB := by rw [Nat.mul_comm]; exact (Nat.div_add_mod _ TB).symm
    have h1 := h (N / B % TB) (Nat.mod_lt _ hT) 0 hB (N % B) hlt
    rw [strideLoop_length hTB, strideLoop_length hTB] at h1
    set q := N / B
    set r := N % B
    set a := q / TB
    set b := q % TB
    have e : N = a * (TB * B) + (b * B + r) := by rw [hN, hq]; ring
    rw [show N - (b * B + 0) + (TB * B - 1) = (r - 1) + TB * B * (a + 1) by
        rw [Nat.mul_add, Nat.mul_comm (TB * B) a]; omega,
      Nat.add_mul_div_left _ _ hTB,
      show N - (b * B + r) + (TB * B - 1) = (TB * B - 1) + TB * B * a by
        rw [Nat.mul_comm (TB * B) a]; omega,
      Nat.add_mul_div_left _ _ hTB, Nat.div_eq_of_lt (show TB * B - 1 < TB * B by omega),
      Nat.div_eq_of_lt (show r - 1 < TB * B by
        have : B ≤ TB * B := Nat.le_mul_of_pos_left _ hT
        omega)] at h1
    omega
  · rintro ⟨m, rfl⟩ b hb t ht t' ht'
    rw [Nat.mul_comm B m, strideLoop_block hT b t ht, strideLoop_block hT b t' ht', List.length_map, List.length_map]

/-- **C123, scan**: all threads execute the same barriers, as many as the model has phases. -/
theorem C123_scan (L N W : ℕ) :
    let EB := execBlocks N (chunkLen L)
    UniformBarriers (2 ^ L) (launchBlocks W EB) (scanBarriers L EB (launchBlocks W EB)) ∧
    ∀ b < launchBlocks W EB, ∀ t < 2 ^ L,
      (scanBarriers L EB (launchBlocks W EB) b t).length = (blockPhases (M := ℤ) L N EB (launchBlocks W EB) b).length := by
  intro EB
  constructor
  · intro b hb t ht t' ht'
    refine flatMap_const_eq ?_
    exact (stride_uniform_iff (by positivity) (by omega)).mpr ⟨EB, Nat.mul_comm _ _⟩ b hb t ht t' ht'
  · intro b hb t ht
    unfold scanBarriers blockPhases
    rw [flatMap_const_length, strideLoop_block (by omega) b t ht, List.length_map, List.length_flatMap]
    have : ∀ c, (chunkPhases (M := ℤ) L N b c).length = 2 * L + 5 := by
      intro c; simp [chunkPhases]; omega
    simp only [this, List.map_const', List.sum_replicate, smul_eq_mul, List.length_append, List.length_replicate,
      List.length_cons, List.length_nil]
    congr 1
    omega

/-- **C123, keys**: all threads execute the two barriers outside of the loop. -/
theorem C123_count_keys (N B TB : ℕ) (keys : ℕ → ℤ) : UniformBarriers B TB (keyBarriers N B TB) ∧
    ∀ b t, (keyBarriers N B TB b t).length + 1 = (keyPhases N B TB keys b).length := by
  constructor
  · intro b _ t _ t' _
    have : ∀ l : List ℕ, l.flatMap (fun _ => ([] : List ℕ)) = [] := by simp
    simp only [keyBarriers, this]
  · intro b t
    simp [keyBarriers, keyPhases]

section
variable {α : Type*} [Field α]

theorem proj_turns {c : ProjCfg} (hc : CfgOk c) (n t : ℕ) (ht : t < c.B) :
    (strideLoop c.G (c.rounded n) (c.gid t)).length = c.rounded n / c.G := by
  have hG := hc.G_pos
  have hg : c.gid t < c.G := by
    unfold ProjCfg.gid ProjCfg.G
    exact Nat.div_lt_div_of_lt_of_dvd hc.dvd ht
  have hd : c.G ∣ c.rounded n := by
    unfold ProjCfg.rounded
    have h1 : n % c.G < c.G := Nat.mod_lt _ hG
    refine ⟨n / c.G + 1, ?_⟩
    have := Nat.div_add_mod n c.G
    rw [Nat.mul_add]
    omega
  obtain ⟨m, hm⟩ := hd
  have := strideLoop_block (TB := 1) (EB := m) (NT := c.G) one_pos 0 (c.gid t) hg
  rw [Nat.one_mul, Nat.zero_mul, Nat.zero_add, Nat.mul_comm m] at this
  rw [hm, this, List.length_map, strideLoop_length one_pos, Nat.mul_div_cancel_left _ hG]
  simp

/-- **C123, projection**: all threads execute the same barriers, as many as the model has
phases; in particular all make the same number of turns through the neighbours
(`ProjIn.passes`), because their number is rounded up. -/
theorem C123_proj (I : ProjIn α) (c : ProjCfg) (hc : CfgOk c) (TB : ℕ) :
    UniformBarriers c.B TB (projBarriers I c TB) ∧
    ∀ b, ∀ t < c.B, (projBarriers I c TB b t).length =
      ((strideLoop TB (I.total c) b).flatMap (projPhases I c)).length := by
  constructor
  · intro b _ t ht t' ht'
    unfold projBarriers
    congr 1
    funext it
    congr 1
    exact flatMap_const_eq (by rw [proj_turns hc _ t ht, proj_turns hc _ t' ht'])
  · intro b t ht
    unfold projBarriers
    rw [List.length_flatMap, List.length_flatMap]
    congr 2
    funext it
    unfold projPhases ProjIn.passes
    rw [List.length_append, flatMap_const_length, proj_turns hc _ t ht, List.length_append, List.length_flatMap]
    simp

/-- **C123, gradient of the projection.** -/
theorem C123_proj_grads (I : ProjIn α) (c : ProjCfg) (hc : CfgOk c) (g : ℕ → α) (TB : ℕ) :
    UniformBarriers c.B TB (gradBarriers I c TB) ∧
    ∀ b, ∀ t < c.B, (gradBarriers I c TB b t).length =
      ((strideLoop TB (I.total c) b).flatMap (gradPhases I c g)).length := by
  constructor
  · intro b _ t ht t' ht'
    unfold gradBarriers
    congr 1
    funext it
    congr 1
    exact flatMap_const_eq (by rw [proj_turns hc _ t ht, proj_turns hc _ t' ht'])
  · intro b t ht
    unfold gradBarriers
    rw [List.length_flatMap, List.length_flatMap]
    congr 2
    funext it
    unfold gradPhases ProjIn.passes
    rw [List.length_append, flatMap_const_length, proj_turns hc _ t ht, List.length_append, List.length_flatMap]
    simp

end

theorem flatMap_ne_nil_inj {α β : Type*} {l l' : List α} {x : List β} (hx : 0 < x.length)
    (h : l.flatMap (fun _ => x) = l'.flatMap (fun _ => x)) : l.length = l'.length := by
  have := congrArg List.length h
  rw [flatMap_const_length, flatMap_const_length] at this
  exact Nat.eq_of_mul_eq_mul_right hx this

/-- **C123, counting of neighbours**: the barriers are inside of a loop that the threads of the last
block leave at different times; all threads execute the same barriers exactly if the
number of centres is a multiple of four. -/
theorem C123_count_partial (S W : ℕ) (hS : 0 < S) (hW : 0 < W) :
    let TB := launchBlocks W (execBlocks (findIters S offsetsPerBlock) 64)
    UniformBarriers 64 TB (countBarriers S offsetsPerBlock 64 TB) ↔ 4 ∣ S := by
  intro TB
  have hM : findIters S offsetsPerBlock = S * 9 * 16 := rfl
  have hTB : 0 < TB := launchBlocks_pos hW (by
    unfold execBlocks
    split
    · omega
    · next h => rw [hM] at h ⊢; omega)
  have h1 : UniformBarriers 64 TB (countBarriers S offsetsPerBlock 64 TB) ↔ 64 ∣ findIters S offsetsPerBlock := by
    rw [← stride_uniform_iff (by norm_num) hTB]
    constructor
    · intro h b hb t ht t' ht'
      exact flatMap_ne_nil_inj (by simp) (h b hb t ht t' ht')
    · intro h b hb t ht t' ht'
      exact flatMap_const_eq (h b hb t ht t' ht')
  rw [h1, hM]
  omega

/-- **C123 fails for the counting of neighbours**: one centre. -/
theorem C123_count_false : ¬ ∀ (S W : ℕ), 0 < S → 0 < W →
    UniformBarriers 64 (launchBlocks W (execBlocks (findIters S offsetsPerBlock) 64))
      (countBarriers S offsetsPerBlock 64 (launchBlocks W (execBlocks (findIters S offsetsPerBlock) 64))) := by
  intro h
  have := (C123_count_partial 1 1 one_pos one_pos).mp (h 1 1 one_pos one_pos)
  omega

/-- **C123, propagation of the counters**: for more than 512 elements all threads execute the same barriers
exactly if the number of elements is a multiple of 64. -/
theorem C123_propagate_partial (N W : ℕ) (hN : 512 < N) (hW : 0 < W) :
    let TB := launchBlocks W (execBlocks (N - 512) 64)
    UniformBarriers 64 TB (propBarriers scanLog N 64 TB) ↔ 64 ∣ N := by
  intro TB
  have hTB : 0 < TB := launchBlocks_pos hW (by
    unfold execBlocks
    split
    · omega
    · next h => omega)
  have hc : chunkLen scanLog = 512 := by decide
  have e : ∀ b t, (strideLoop (TB * 64) N (b * 64 + t + 512)).length = (strideLoop (TB * 64) (N - 512) (b * 64 + t)).length := by
    intro b t
    rw [strideLoop_length (by omega), strideLoop_length (by omega),
      show N - (b * 64 + t + 512) = N - 512 - (b * 64 + t) by omega]
  have h1 : UniformBarriers 64 TB (propBarriers scanLog N 64 TB) ↔ 64 ∣ N - 512 := by
    rw [← stride_uniform_iff (by norm_num) hTB]
    constructor
    · intro h b hb t ht t' ht'
      rw [← e, ← e]
      have := h b hb t ht t' ht'
      unfold propBarriers at this
      rw [hc] at this
      exact flatMap_ne_nil_inj (x := [164]) (by simp) this
    · intro h b hb t ht t' ht'
      unfold propBarriers
      rw [hc]
      refine flatMap_const_eq ?_
      have := h b hb t ht t' ht'
      rw [← e, ← e] at this
      exact this
  rw [h1]
  omega

/-- **C123 fails for the propagation**: 513 elements. -/
theorem C123_propagate_false : ¬ ∀ (N W : ℕ), 512 < N → 0 < W →
    UniformBarriers 64 (launchBlocks W (execBlocks (N - 512) 64))
      (propBarriers scanLog N 64 (launchBlocks W (execBlocks (N - 512) 64))) := by
  intro h
  have := (C123_propagate_partial 513 1 (by norm_num) one_pos).mp (h 513 1 (by norm_num) one_pos)
  omega

/-! ### the statements are not empty -/

/-- Sixteen centres: two blocks with several turns each. -/
example : UniformBarriers 64 (launchBlocks 2 (execBlocks (findIters 16 offsetsPerBlock) 64))
    (countBarriers 16 offsetsPerBlock 64 (launchBlocks 2 (execBlocks (findIters 16 offsetsPerBlock) 64))) :=
  (C123_count_partial 16 2 (by norm_num) (by norm_num)).mpr (by norm_num)

/-- A launch of the projection with 16 basis functions and groups of three features. -/
example : CfgOk ⟨64, 16, 3⟩ := ⟨by norm_num, by norm_num, by norm_num, by norm_num, by norm_num⟩

end PC
