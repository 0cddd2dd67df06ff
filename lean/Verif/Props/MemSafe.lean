import Verif.Props.CudaSampling
import Verif.Props.CudaLimit
import Verif.Props.CudaPdf
import Verif.MachineInt

/-!
# Property C103: the kernels read and write only inside their arrays

Reads are stated as non-interference: the result of a kernel is the same for any
two memories that agree inside the arrays.
-/

set_option linter.unusedVariables false
set_option linter.unusedSectionVars false

namespace PC

/-! ### construction and search of the access structure -/

/-- **C103, access structure**: the kernel that builds the table reads the keys of the
`N` points only. -/
theorem C103_build_reads {D : ℕ} (nc : Fin D → ℤ) (keys keys' : ℕ → ℤ) (N T : ℕ) (hT : 0 < T)
    (h : ∀ i < N, keys i = keys' i) : buildDsThreads nc keys N T = buildDsThreads nc keys' N T := by
  unfold buildDsThreads strideThreads
  refine List.map_congr_left fun t ht => List.flatMap_congr fun cur hc => ?_
  obtain ⟨_, _, hlt⟩ := (mem_strideLoop hT _ _).mp hc
  unfold buildDsBody
  dsimp only
  rw [h cur hlt]
  by_cases h1 : 1 ≤ cur
  · rw [h (cur - 1) (by omega)]
    by_cases h2 : cur + 1 = N
    · simp [h2]
    · rw [h (cur + 1) (by omega)]
  · by_cases h2 : cur + 1 = N
    · simp [h1, h2]
    · rw [h (cur + 1) (by omega)]
      simp [h1]

/-- Bounds of the search variables. -/
structure SearchIn (m : ℕ) (s : Search) : Prop where
  mn : s.mn.1 ≤ s.mn.2 ∧ s.mn.2 ≤ m
  mx : s.mx.1 ≤ s.mx.2 ∧ s.mx.2 ≤ m

theorem SearchIn.step {m : ℕ} {s : Search} (h : SearchIn m s) (keys : ℕ → ℤ) (lo : ℕ) (a b : ℤ) :
    SearchIn m (searchStep keys lo a b s) := by
  obtain ⟨⟨h1, h2⟩, h3, h4⟩ := h
  unfold searchStep
  constructor <;> dsimp only <;> split_ifs <;> first | exact ⟨by assumption, by assumption⟩ | (constructor <;> dsimp only <;> omega)

theorem searchStep_congr {m : ℕ} {s : Search} (h : SearchIn m s) (keys keys' : ℕ → ℤ) (lo : ℕ) (a b : ℤ)
    (hk : ∀ j ≤ m, keys (j + lo) = keys' (j + lo)) : searchStep keys lo a b s = searchStep keys' lo a b s := by
  obtain ⟨⟨h1, h2⟩, h3, h4⟩ := h
  unfold searchStep
  dsimp only
  rw [hk _ (by omega), hk _ (by omega)]

theorem searchLoop_congr {m : ℕ} (keys keys' : ℕ → ℤ) (lo : ℕ) (a b : ℤ)
    (hk : ∀ j ≤ m, keys (j + lo) = keys' (j + lo)) (fuel : ℕ) (s : Search) (h : SearchIn m s) :
    searchLoop keys lo a b fuel s = searchLoop keys' lo a b fuel s ∧
    ∀ s', searchLoop keys lo a b fuel s = some s' → SearchIn m s' := by
  induction fuel generalizing s with
  | zero => exact ⟨rfl, by rintro s' ⟨⟩⟩
  | succ fuel ih =>
    unfold searchLoop
    split_ifs with hs
    · exact ⟨rfl, by rintro s' ⟨⟩; exact h⟩
    · rw [← searchStep_congr h keys keys' lo a b hk]
      exact ih _ (h.step keys lo a b)

theorem searchResult_congr {m : ℕ} {s : Search} (h : SearchIn m s) (keys keys' : ℕ → ℤ) (lo : ℕ) (a b : ℤ)
    (hk : ∀ j ≤ m, keys (j + lo) = keys' (j + lo)) :
    searchResult keys lo a b s = searchResult keys' lo a b s ∧ (searchResult keys lo a b s).2 ≤ m + lo + 1 := by
  obtain ⟨⟨h1, h2⟩, h3, h4⟩ := h
  unfold searchResult
  dsimp only
  rw [hk s.mn.1 (by omega), hk s.mn.2 (by omega), hk s.mx.1 (by omega), hk s.mx.2 (by omega)]
  refine ⟨rfl, ?_⟩
  split_ifs <;> omega

/-- The decoded batch element of a key in range. -/
theorem cuDecode_batch {D : ℕ} (nc : Fin D → ℤ) (hn : ∀ d, 0 < nc d) (B : ℕ) (key : ℤ) (h0 : 0 ≤ key)
    (hk : key < B * ∏ d, nc d) : (cuDecode key nc).1 < B := by
  obtain ⟨h1, h2, h3⟩ := cuDecode_spec nc hn key h0
  rw [cuKey_eq] at h3
  obtain ⟨h4, h5⟩ := tailKey_range nc _ h2
  have e : mulZ nc 0 = ∏ d, nc d := by unfold mulZ; simp
  rw [e] at h3 h5
  have hp : 0 < ∏ d, nc d := Finset.prod_pos fun d _ => hn d
  by_contra hc
  push Not at hc
  have := mul_le_mul_of_nonneg_right hc hp.le
  nlinarith

/-- The table index of a cell whose first two coordinates are in the grid. -/
theorem cuDsFromCell_lt {k : ℕ} (nc : Fin (k + 2) → ℤ) (b : ℤ) (B : ℕ) (cell : Fin (k + 2) → ℤ) (hb : 0 ≤ b ∧ b < B)
    (h0 : 0 ≤ cell 0 ∧ cell 0 < nc 0) (h1 : 0 ≤ cell 1 ∧ cell 1 < nc 1) :
    0 ≤ cuDsFromCell b cell nc ∧ cuDsFromCell b cell nc < B * nc 0 * nc 1 := by
  have e : cuDsFromCell b cell nc = (b * nc 0 + cell 0) * nc 1 + cell 1 := by
    unfold cuDsFromCell
    rw [ptAt_lt _ (by omega), ptAt_lt _ (by omega), ptAt_lt _ (by omega), ptAt_lt _ (by omega)]
    change b * nc 0 * nc 1 + cell 0 * nc 1 + cell 1 = _
    ring
  rw [e]
  have hn0 : 0 < nc 0 := by omega
  have hn1 : 0 < nc 1 := by omega
  have ha : 0 ≤ b * nc 0 + cell 0 := by have := mul_nonneg hb.1 hn0.le; omega
  have hb' : b * nc 0 + cell 0 + 1 ≤ B * nc 0 := by
    have := mul_le_mul_of_nonneg_right (show b + 1 ≤ B by omega) hn0.le
    linarith
  constructor
  · have := mul_nonneg ha hn1.le
    omega
  · have := mul_le_mul_of_nonneg_right hb' hn1.le
    linarith

/-- **C103, search**: for a centre of one of the `B` batch elements, the kernels that
find the ranges read the first `N` keys and the `B * nc 0 * nc 1` entries of the
table only, and the ranges end at `N` at the latest, so the counting and storing
kernels read only the first `N` points.  Neither the keys nor the table need to be
sorted or consistent, it suffices that the entries end at `N` at the latest; `fuel` is any
number of iterations, so that this holds in every iteration. -/
theorem C103_search_reads {k : ℕ} (nc : Fin (k + 2) → ℕ) (hn : ∀ d, 0 < nc d) (B N : ℕ) (fuel : ℕ)
    (keys keys' : ℕ → ℤ) (tab tab' : ℤ → ℕ × ℕ) (last : ℤ)
    (hk : ∀ i < N, keys i = keys' i) (ht : ∀ s : ℕ, s < B * nc 0 * nc 1 → tab s = tab' s)
    (hN : ∀ s : ℕ, s < B * nc 0 * nc 1 → (tab s).2 ≤ N)
    (key : ℕ) (hkey : key < B * ∏ d, nc d) (off : Fin (k + 2) → ℤ) :
    cuRange fuel (fun d => (nc d : ℤ)) keys tab last key off =
      cuRange fuel (fun d => (nc d : ℤ)) keys' tab' last key off ∧
    ∀ r, cuRange fuel (fun d => (nc d : ℤ)) keys tab last key off = some r → r.2 ≤ N := by
  have hn' : ∀ d, 0 < (fun d => (nc d : ℤ)) d := fun d => Int.ofNat_lt.mpr (hn d)
  obtain ⟨hb, hc, _⟩ := cuDecode_spec (fun d => (nc d : ℤ)) hn' key (Int.natCast_nonneg _)
  have hbB := cuDecode_batch (fun d => (nc d : ℤ)) hn' B key (Int.natCast_nonneg _) (by exact_mod_cast hkey)
  have htab : ∀ cell : Fin (k + 2) → ℤ, 0 ≤ cell 0 ∧ cell 0 < nc 0 → 0 ≤ cell 1 ∧ cell 1 < nc 1 →
      tab (cuDsFromCell (cuDecode key (fun d => (nc d : ℤ))).1 cell (fun d => (nc d : ℤ))) =
        tab' (cuDsFromCell (cuDecode key (fun d => (nc d : ℤ))).1 cell (fun d => (nc d : ℤ))) ∧
      (tab (cuDsFromCell (cuDecode key (fun d => (nc d : ℤ))).1 cell (fun d => (nc d : ℤ)))).2 ≤ N := by
    intro cell h0 h1
    obtain ⟨a, b⟩ := cuDsFromCell_lt (fun d => (nc d : ℤ)) _ B cell ⟨hb, hbB⟩ h0 h1
    obtain ⟨s, hs⟩ := Int.eq_ofNat_of_zero_le a
    rw [hs] at b ⊢
    have hs' : s < B * nc 0 * nc 1 := by exact_mod_cast b
    exact ⟨ht s hs', hN s hs'⟩
  unfold cuRange
  split_ifs with hD
  · unfold cuFindRange
    dsimp only
    by_cases hin : ∀ d : Fin (k + 2), d.val < k + 2 - 1 → 0 ≤ (cuDecode key (fun d => (nc d : ℤ))).2 d + off d ∧
        (cuDecode key (fun d => (nc d : ℤ))).2 d + off d < nc d
    · rw [if_pos hin, if_pos hin]
      obtain ⟨e1, e2⟩ := htab (fun d => (cuDecode key (fun d => (nc d : ℤ))).2 d + off d)
        (hin 0 (by simp)) (hin 1 (by simp; omega))
      rw [← e1]
      generalize tab (cuDsFromCell (cuDecode key (fun d => (nc d : ℤ))).1
        (fun d => (cuDecode key (fun d => (nc d : ℤ))).2 d + off d) (fun d => (nc d : ℤ))) = rg at e2
      generalize keyBounds _ _ last = bd
      by_cases hrg : rg.1 < rg.2
      · rw [if_pos hrg, if_pos hrg]
        have hk' : ∀ j ≤ rg.2 - rg.1 - 1, keys (j + rg.1) = keys' (j + rg.1) := fun j hj => hk _ (by omega)
        obtain ⟨c1, c2⟩ := searchLoop_congr keys keys' rg.1 bd.1 bd.2 hk' fuel
          ⟨(0, rg.2 - rg.1 - 1), (0, rg.2 - rg.1 - 1)⟩ ⟨⟨Nat.zero_le _, le_rfl⟩, Nat.zero_le _, le_rfl⟩
        rw [← c1]
        cases hs : searchLoop keys rg.1 bd.1 bd.2 fuel ⟨(0, rg.2 - rg.1 - 1), (0, rg.2 - rg.1 - 1)⟩ with
        | none => exact ⟨rfl, by rintro r ⟨⟩⟩
        | some s =>
          obtain ⟨d1, d2⟩ := searchResult_congr (c2 s hs) keys keys' rg.1 bd.1 bd.2 hk'
          refine ⟨congrArg some d1, ?_⟩
          rintro r ⟨⟩
          omega
      · rw [if_neg hrg, if_neg hrg]
        exact ⟨rfl, by rintro r ⟨⟩; exact Nat.zero_le _⟩
    · rw [if_neg hin, if_neg hin]
      exact ⟨rfl, by rintro r ⟨⟩; exact Nat.zero_le _⟩
  · unfold cuFindRange2
    dsimp only
    split_ifs with hin
    · obtain ⟨e1, e2⟩ := htab (fun d => (cuDecode key (fun d => (nc d : ℤ))).2 d + off d) (hin 0) (hin 1)
      rw [← e1]
      exact ⟨rfl, by rintro r ⟨⟩; exact e2⟩
    · exact ⟨rfl, by rintro r ⟨⟩; exact Nat.zero_le _⟩

/-- A 2×2×2 grid, five keys, and two memories that differ behind the keys and behind the
table. -/
example : (∀ s : ℕ, s < 1 * 2 * 2 → ((buildDsResult exTrace s).2 ≤ 5 ∧ buildDsResult exTrace s =
      (fun s : ℤ => if s < 4 then buildDsResult exTrace s else (7, 99)) s)) ∧
    (4 : ℕ) < 1 * ∏ d, (![2, 2, 2] : Fin 3 → ℕ) d := by
  constructor
  · decide +kernel
  · decide

/-! ### counting -/

/-- The addresses of the shared array `localCounter` that an action uses. -/
def CountAct.addrs (R B : ℕ) (sh : ℕ → ℕ) : CountAct → List ℕ
  | .setSample t _ => [t]
  | .setZero t _ => [B + t]
  | .hit _ i => [0, B + (iterSample R i - sh 0)]
  | .flush t i =>
    if t = 0 then [B]
    else (t - 1) :: (if iterSample R i ≠ sh (t - 1) then [0, B + (iterSample R i - sh 0)] else [])

/-- All addresses of a trace. -/
def countAddrs (R B : ℕ) : (ℕ → ℕ) → List CountAct → List ℕ
  | _, [] => []
  | sh, a :: tr => a.addrs R B sh ++ countAddrs R B (a.run R B sh).1 tr

theorem countAddrs_append (R B : ℕ) (sh : ℕ → ℕ) (t1 t2 : List CountAct) :
    countAddrs R B sh (t1 ++ t2) = countAddrs R B sh t1 ++ countAddrs R B (countRun R B sh t1).1 t2 := by
  induction t1 generalizing sh with
  | nil => rfl
  | cons a t1 ih => simp only [List.cons_append, countAddrs, countRun, ih, List.append_assoc]

theorem iterSample_diff (R a t : ℕ) : iterSample R (a + t) - iterSample R a ≤ t := by
  unfold iterSample
  rcases Nat.eq_zero_or_pos (R * threadsPerRange) with h | h
  · simp [h]
  · have : (a + t) / (R * threadsPerRange) ≤ (a + t * (R * threadsPerRange)) / (R * threadsPerRange) :=
      Nat.div_le_div_right (by have := Nat.le_mul_of_pos_right t h; omega)
    rw [Nat.add_mul_div_right _ _ h] at this
    omega

theorem phase_mem {α : Type*} {B M c : ℕ} {prog : ℕ → List α} {tr : List α}
    (h : Interleave ((List.range B).map (fun t => if c * B + t < M then prog t else [])) tr) {a : α}
    (ha : a ∈ tr) : ∃ t < B, c * B + t < M ∧ a ∈ prog t := by
  rw [h.perm.mem_iff, List.mem_flatten] at ha
  obtain ⟨l, hl, ha⟩ := ha
  obtain ⟨t, ht, rfl⟩ := List.mem_map.mp hl
  rw [List.mem_range] at ht
  split at ha
  · next hlt => exact ⟨t, ht, hlt, ha⟩
  · cases ha

/-- One iteration of a block. -/
theorem chunk_addrs {R B M c : ℕ} (hB : 0 < B) (rg : ℕ → ℕ × ℕ) (hit : ℕ → ℕ → Bool) (hc : c * B < M)
    (sh : ℕ → ℕ) (tr : List CountAct) (h : Phased (countPhases R B M rg hit c) tr) :
    (∀ a ∈ countAddrs R B sh tr, a < 2 * B) ∧ ∀ w ∈ (countRun R B sh tr).2, ∃ i < M, w.1 = iterSample R i := by
  unfold countPhases at h
  obtain ⟨t1, t23, rfl, h1, h23⟩ := Phased.append_inv (p1 := [_]) h
  obtain ⟨t2, t3, rfl, h2, h3⟩ := Phased.append_inv (p1 := [_]) h23
  replace h1 := h1.single_inv
  replace h2 := h2.single_inv
  replace h3 := h3.single_inv
  obtain ⟨i1, i2⟩ := phase_init (R := R) hB sh t1 h1
  have h0 : (countRun R B sh t1).1 0 = iterSample R (c * B) := (i2 0 hB hc).1
  have hhit : ∀ a ∈ t2, ∃ t < B, c * B + t < M ∧ a = .hit t (c * B + t) := by
    intro a ha
    obtain ⟨t, ht, hlt, hm⟩ := phase_mem h2 ha
    obtain ⟨_, _, rfl⟩ := List.mem_map.mp hm
    exact ⟨t, ht, hlt, rfl⟩
  obtain ⟨j1, j2, j3⟩ := run_hits (R := R) hB _ t2 (countRun R B sh t1).1 h0
    (fun a ha => by obtain ⟨t, _, _, e⟩ := hhit a ha; exact ⟨_, _, e⟩)
  have hflush : ∀ a ∈ t3, ∃ t < B, c * B + t < M ∧ a = .flush t (c * B + t) := by
    intro a ha
    obtain ⟨t, ht, hlt, hm⟩ := phase_mem h3 ha
    exact ⟨t, ht, hlt, List.mem_singleton.mp hm⟩
  have hd : ∀ t < B, iterSample R (c * B + t) - iterSample R (c * B) < B := fun t ht =>
    (iterSample_diff R (c * B) t).trans_lt ht
  refine ⟨?_, ?_⟩
  · intro a ha
    rw [countAddrs_append, countAddrs_append, List.mem_append, List.mem_append] at ha
    rcases ha with ha | ha | ha
    · have : ∀ (l : List CountAct) (sh : ℕ → ℕ), (∀ x ∈ l, ∃ t < B, ∃ i, x = .setSample t i ∨ x = .setZero t i) →
          ∀ a ∈ countAddrs R B sh l, a < 2 * B := by
        intro l
        induction l with
        | nil => intro sh _ a ha; cases ha
        | cons x l ih =>
          intro sh hx a ha
          rw [countAddrs, List.mem_append] at ha
          rcases ha with ha | ha
          · obtain ⟨t, ht, i, rfl | rfl⟩ := hx x List.mem_cons_self
            · rw [CountAct.addrs, List.mem_singleton] at ha; omega
            · rw [CountAct.addrs, List.mem_singleton] at ha; omega
          · exact ih _ (fun y hy => hx y (List.mem_cons_of_mem _ hy)) a ha
      refine this t1 sh (fun x hx => ?_) a ha
      obtain ⟨t, ht, _, hm⟩ := phase_mem h1 hx
      refine ⟨t, ht, c * B + t, ?_⟩
      simpa using hm
    · have : ∀ (l : List CountAct) (sh : ℕ → ℕ), sh 0 = iterSample R (c * B) →
          (∀ x ∈ l, ∃ t < B, c * B + t < M ∧ x = .hit t (c * B + t)) → ∀ a ∈ countAddrs R B sh l, a < 2 * B := by
        intro l
        induction l with
        | nil => intro sh _ _ a ha; cases ha
        | cons x l ih =>
          intro sh h0 hx a ha
          rw [countAddrs, List.mem_append] at ha
          obtain ⟨t, ht, _, rfl⟩ := hx x List.mem_cons_self
          rcases ha with ha | ha
          · have := hd t ht
            rw [CountAct.addrs, h0] at ha
            simp only [List.mem_cons, List.not_mem_nil, or_false] at ha
            omega
          · refine ih _ ?_ (fun y hy => hx y (List.mem_cons_of_mem _ hy)) a ha
            simp only [CountAct.run]
            rw [Function.update_of_ne (by omega), h0]
      exact this t2 _ h0 hhit a ha
    · have : ∀ (l : List CountAct) (sh : ℕ → ℕ), sh 0 = iterSample R (c * B) →
          (∀ x ∈ l, ∃ t < B, c * B + t < M ∧ x = .flush t (c * B + t)) → ∀ a ∈ countAddrs R B sh l, a < 2 * B := by
        intro l
        induction l with
        | nil => intro sh _ _ a ha; cases ha
        | cons x l ih =>
          intro sh h0 hx a ha
          rw [countAddrs, List.mem_append] at ha
          obtain ⟨t, ht, _, rfl⟩ := hx x List.mem_cons_self
          rcases ha with ha | ha
          · have := hd t ht
            rw [CountAct.addrs, h0] at ha
            split_ifs at ha <;> simp only [List.mem_cons, List.not_mem_nil, or_false] at ha <;> omega
          · exact ih _ h0 (fun y hy => hx y (List.mem_cons_of_mem _ hy)) a ha
      exact this t3 _ ((j2 0 hB).trans h0) hflush a ha
  · intro w hw
    rw [countRun_append, countRun_append] at hw
    simp only [i1, j1, List.nil_append] at hw
    rw [(run_flushes t3 _ (fun a ha => by obtain ⟨t, _, _, e⟩ := hflush a ha; exact ⟨_, _, e⟩)).2,
      List.mem_flatMap] at hw
    obtain ⟨a, ha, hw⟩ := hw
    obtain ⟨t, ht, hlt, rfl⟩ := hflush a ha
    refine ⟨_, hlt, ?_⟩
    simp only [CountAct.run] at hw
    split_ifs at hw
    · rw [List.mem_singleton.mp hw]
    · rw [List.mem_singleton.mp hw]
    · cases hw

/-- **C103, counting**: in every schedule, from arbitrary contents, every block of the
counting kernel uses only the `2 * B` entries of its shared array, and adds only to the
counters of the `S` samples. -/
theorem C103_count_bounds (S R B TB b : ℕ) (hB : 0 < B) (hR : 0 < R) (hTB : 0 < TB) (rg : ℕ → ℕ × ℕ)
    (hit : ℕ → ℕ → Bool) (sh : ℕ → ℕ) (tr : List CountAct)
    (h : Phased (countBlock R B (findIters S R) TB rg hit b) tr) :
    (∀ a ∈ countAddrs R B sh tr, a < 2 * B) ∧ ∀ w ∈ (countRun R B sh tr).2, w.1 < S := by
  have hS : ∀ i < findIters S R, iterSample R i < S := by
    intro i hi
    unfold iterSample findIters at *
    rw [mul_assoc] at hi
    exact Nat.div_lt_of_lt_mul (by rw [mul_comm]; exact hi)
  unfold countBlock at h
  have hc : ∀ c ∈ strideLoop TB (execBlocks (findIters S R) B) b, c * B < findIters S R := by
    intro c hc
    obtain ⟨k, _, hlt⟩ := (mem_strideLoop hTB _ _).mp hc
    exact (lt_execBlocks hB).mp hlt
  generalize strideLoop TB (execBlocks (findIters S R) B) b = cs at h hc
  induction cs generalizing sh tr with
  | nil => 
    cases h
    constructor
    · intro a ha; cases ha
    · intro a ha; cases ha
  | cons c cs ih =>
    rw [List.flatMap_cons] at h
    obtain ⟨t1, t2, rfl, h1, h2⟩ := h.append_inv
    obtain ⟨a1, a2⟩ := chunk_addrs hB rg hit (hc c List.mem_cons_self) sh t1 h1
    obtain ⟨b1, b2⟩ := ih (countRun R B sh t1).1 t2 h2 (fun c' hc' => hc c' (List.mem_cons_of_mem _ hc'))
    constructor
    · intro a ha
      rw [countAddrs_append, List.mem_append] at ha
      exact ha.elim (a1 a) (b1 a)
    · intro w hw
      rw [countRun_append] at hw
      rcases List.mem_append.mp hw with hw | hw
      · obtain ⟨i, hi, e⟩ := a2 w hw
        rw [e]
        exact hS i hi
      · exact b2 w hw

/-- Every block has such traces. -/
example : ∃ tr, Phased (countBlock 9 64 (findIters 3 9) 2 (fun _ => (0, 5)) (fun _ _ => true) 1) tr :=
  Phased.exists_seq _

/-! ### storing -/

/-- **C103, storing**: the storing kernels write exactly the slots of the output. -/
theorem C103_store_bounds (S R Wc Ws Wn : ℕ) (hWc : 0 < Wc) (hWs : 0 < Ws) (hWn : 0 < Wn) (hR : 0 < R)
    (hS : 0 < S) (hone : S ≤ 512 + Ws * 64) (rgs : List (ℕ → ℕ × ℕ)) (hit : ℕ → ℕ → Bool) (total : ℕ)
    (res : StoreMem) (h : FindRun S R Wc Ws Wn rgs hit total res) : ∀ w ∈ res.writes, w.1 < total := by
  intro w hw
  have := (findRun_spec S R Wc Ws Wn hWc hWs hWn hR hS hone rgs hit total res h).2.2.1
  have hm := List.mem_map_of_mem (f := Prod.fst) hw
  rw [this.mem_iff, List.mem_range] at hm
  exact hm

/-- **C103, storing with a limit, negative**: with a limit on the number of neighbours
a thread can write before the begin of the output, for ordinary seeds. -/
theorem C103_limit_false : ¬ ∀ (m S Wc Ws Wn : ℕ), 0 < m → 0 < Wc → 0 < Ws → 0 < Wn → 0 < S →
    S ≤ 512 + Ws * 64 → ∀ (rg : ℕ → ℕ × ℕ) (hit : ℕ → ℕ → Bool) (total : ℕ) (res : LimMem),
      LimRun m (FromSeeds (2 ^ 32 - 128) m
        (fun s => ([rg].map (fun rg => passNum offsetsPerBlock rg hit s)).sum))
        S offsetsPerBlock Wc Ws Wn [rg] hit total res →
      ∀ w ∈ res.writes, 0 ≤ w.1 ∧ w.1 < total := by
  intro h
  have key : ∃ c, exLimRun 1 0 0 exLimRg1 [0, 1, 1, 1, 0, 0] = some c ∧ exLimHalted c = true ∧
      c.1.writes = [(-1, (1, 0)), (0, (0, 0))] := by
    have : (exLimRun 1 0 0 exLimRg1 [0, 1, 1, 1, 0, 0]).any (fun c => exLimHalted c &&
      decide (c.1.writes = [(-1, (1, 0)), (0, (0, 0))])) = true := by
      decide +kernel
    obtain ⟨c, h1, h2⟩ := option_any this
    rw [Bool.and_eq_true, decide_eq_true_eq] at h2
    exact ⟨c, h1, h2.1, h2.2⟩
  obtain ⟨c, h1, h2, h3⟩ := key
  have hr := exLim_run 1 0 0 (by norm_num) (by norm_num) (2 ^ 32 - 128) (by norm_num) (by norm_num) exLimRg1
    (by decide +kernel) _ c h1 (exLimHalted_halted c h2)
  have := h 1 1 1 1 1 (by norm_num) (by norm_num) (by norm_num) (by norm_num) (by norm_num) (by norm_num)
    exLimRg1 _ _ c.1 hr (-1, (1, 0)) (by rw [h3]; simp)
  exact absurd this.1 (by norm_num)

/-! ### density estimation -/

/-- Two sets of arrays for the density kernels that agree inside the arrays: `n` points,
`n` ends, `total` pairs. -/
structure PdfAgree {D : ℕ} (total : ℕ) (I I' : PdfIn D) : Prop where
  n : I.n = I'.n
  pts : ∀ i < I.n, I.pts i = I'.pts i
  ends : ∀ i < I.n, I.ends i = I'.ends i
  nb : ∀ j < total, I.nb j = I'.nb j
  bw : I.invBw = I'.invBw
  rad : I.invRad = I'.invRad

theorem rangeIdx_congr {D : ℕ} {total : ℕ} {I I' : PdfIn D} (h : PdfAgree total I I') {i : ℕ} (hi : i < I.n) :
    rangeIdx I.ends i = rangeIdx I'.ends i := by
  unfold rangeIdx rangeStart
  rw [h.ends i hi]
  split_ifs with h0
  · rw [h.ends (i - 1) (by omega)]
  · rfl

theorem mem_rangeIdx_lt {ends : ℕ → ℕ} {i j : ℕ} (h : j ∈ rangeIdx ends i) : j < ends i := by
  unfold rangeIdx at h
  obtain ⟨k, hk, rfl⟩ := List.mem_map.mp h
  rw [List.mem_range] at hk
  omega

theorem pdfDiff_congr {D : ℕ} {total : ℕ} {I I' : PdfIn D} (h : PdfAgree total I I') (he : ∀ i < I.n, I.ends i ≤ total)
    (hnb : ∀ j < total, (I.nb j).1 < I.n) {i j : ℕ} (hi : i < I.n) (hj : j ∈ rangeIdx I.ends i) (w : Fin D → ℝ) :
    pdfDiff I w i j = pdfDiff I' w i j := by
  have hj' : j < total := (mem_rangeIdx_lt hj).trans_le (he i hi)
  funext d
  unfold pdfDiff
  rw [← h.nb j hj', h.pts _ (hnb j hj'), h.pts i hi, h.rad]

theorem pdfLocal_congr {D : ℕ} {total : ℕ} {I I' : PdfIn D} (h : PdfAgree total I I') (he : ∀ i < I.n, I.ends i ≤ total)
    (hnb : ∀ j < total, (I.nb j).1 < I.n) {i j : ℕ} (hi : i < I.n) (hj : j ∈ rangeIdx I.ends i) (w : Fin D → ℝ) (a : ℝ) :
    pdfLocal I w a i j = pdfLocal I' w a i j := by
  unfold pdfLocal
  rw [pdfDiff_congr h he hnb hi hj]

/-- **C103, density**: the density kernel and its gradient read the `n` points, the `n` ends
and the `total` pairs only; gradients are added to the `n` points only. -/
theorem C103_pdf_bounds {D : ℕ} (total : ℕ) (I I' : PdfIn D) (h : PdfAgree total I I')
    (he : ∀ i < I.n, I.ends i ≤ total) (hnb : ∀ j < total, (I.nb j).1 < I.n) (mode T : ℕ) (hT : 0 < T)
    (g g' : ℕ → ℝ) (hg : ∀ i < I.n, g i = g' i) :
    strideThreads T I.n (pdfBody I mode) = strideThreads T I'.n (pdfBody I' mode) ∧
    strideThreads T I.n (pdfGradBody I mode g) = strideThreads T I'.n (pdfGradBody I' mode g') ∧
    (∀ tr, Interleave (strideThreads T I.n (pdfBody I mode)) tr → ∀ w ∈ tr, w.1 < I.n) ∧
    ∀ tr, Interleave (strideThreads T I.n (pdfGradBody I mode g)) tr → ∀ w ∈ tr, w.1.1 < I.n := by
  refine ⟨?_, ?_, ?_, ?_⟩
  · rw [← h.n]
    unfold strideThreads
    refine List.map_congr_left fun t ht => List.flatMap_congr fun i hc => ?_
    obtain ⟨_, _, hi⟩ := (mem_strideLoop hT _ _).mp hc
    unfold pdfBody
    dsimp only
    rw [← rangeIdx_congr h hi, ← h.bw, ← h.n]
    congr 4
    exact List.map_congr_left fun j hj => pdfLocal_congr h he hnb hi hj _ _
  · rw [← h.n]
    unfold strideThreads
    refine List.map_congr_left fun t ht => List.flatMap_congr fun i hc => ?_
    obtain ⟨_, _, hi⟩ := (mem_strideLoop hT _ _).mp hc
    unfold pdfGradBody
    dsimp only
    rw [← rangeIdx_congr h hi, ← h.bw, ← h.n, ← hg i hi]
    congr 1
    · refine List.flatMap_congr fun j hj => List.map_congr_left fun d _ => ?_
      rw [h.nb j ((mem_rangeIdx_lt hj).trans_le (he i hi)), pdfDiff_congr h he hnb hi hj,
        pdfLocal_congr h he hnb hi hj, h.rad]
    · refine List.map_congr_left fun d _ => ?_
      congr 3
      refine List.map_congr_left fun j hj => ?_
      rw [pdfDiff_congr h he hnb hi hj, pdfLocal_congr h he hnb hi hj, h.rad]
  · intro tr htr w hw
    rw [(strideThreads_perm hT _ htr).mem_iff, List.mem_flatMap] at hw
    obtain ⟨i, hi, hw⟩ := hw
    rw [List.mem_singleton.mp hw]
    exact List.mem_range.mp hi
  · intro tr htr w hw
    rw [(strideThreads_perm hT _ htr).mem_iff, List.mem_flatMap] at hw
    obtain ⟨i, hi, hw⟩ := hw
    rw [List.mem_range] at hi
    unfold pdfGradBody at hw
    dsimp only at hw
    rw [List.mem_append, List.mem_flatMap] at hw
    rcases hw with ⟨j, hj, hw⟩ | hw
    · obtain ⟨d, _, rfl⟩ := List.mem_map.mp hw
      exact hnb j ((mem_rangeIdx_lt hj).trans_le (he i hi))
    · obtain ⟨d, _, rfl⟩ := List.mem_map.mp hw
      exact hi

/-- One point, one pair, and other values behind them. -/
example : PdfAgree (D := 2) 1 ⟨1, fun _ _ => 0, fun _ => (0, 0), fun _ => 1, fun _ => 1, fun _ => 1⟩
      ⟨1, fun i _ => i, fun j => (j, 0), fun i => i + 1, fun _ => 1, fun _ => 1⟩ ∧
    (∀ i < 1, (fun _ => 1 : ℕ → ℕ) i ≤ 1) := by
  refine ⟨⟨rfl, ?_, ?_, ?_, rfl, rfl⟩, fun _ _ => le_rfl⟩
  · intro i hi; simp at hi; subst hi; funext d; simp
  · intro i hi; simp at hi; subst hi; rfl
  · intro j hj; obtain rfl : j = 0 := by omega
    rfl

/-! ### sampling -/

theorem isFirstKey_congr {N : ℕ} {keys keys' : ℕ → ℤ} (h : ∀ i < N, keys i = keys' i) {i : ℕ} (hi : i < N) :
    isFirstKey keys i = isFirstKey keys' i := by
  unfold isFirstKey
  rw [h i hi, h (i - 1) (by omega)]

theorem compactProg_congr {N : ℕ} {sel sel' : ℕ → Bool} (h : ∀ i < N, sel i = sel' i) {T : ℕ} (hT : 0 < T) (t : ℕ) :
    compactProg sel N T t = compactProg sel' N T t := by
  unfold compactProg
  congr 1
  refine List.filter_congr fun i hi => h i ?_
  obtain ⟨_, _, hlt⟩ := (mem_strideLoop hT _ _).mp hi
  exact hlt

theorem compactKernel_congr {N : ℕ} {sel sel' : ℕ → Bool} (h : ∀ i < N, sel i = sel' i) {T : ℕ} (hT : 0 < T)
    (m : StoreMem) : CompactKernel sel N T m → CompactKernel sel' N T m := by
  rintro ⟨ls, h1, h2⟩
  refine ⟨ls, ?_, h2⟩
  simpa only [compactProg_congr h hT] using h1

theorem countKeys_congr {N B W : ℕ} (hN : 0 < N) (hB : 0 < B) (hW : 0 < W) {keys keys' : ℕ → ℤ}
    (h : ∀ i < N, keys i = keys' i) (n : ℕ) : CountKeys N B W keys n → CountKeys N B W keys' n := by
  rintro ⟨adds, tr, h1, h2, h3⟩
  refine ⟨adds, tr, h1, ?_, h3⟩
  intro b l hl
  obtain ⟨v, btr, hp, e⟩ := h2 b l hl
  refine ⟨v, btr, ?_, e⟩
  have hTB : 0 < launchBlocks W (execBlocks N B) := by
    rw [← h1]
    by_contra hc
    have : adds = [] := List.length_eq_zero_iff.mp (by omega)
    rw [this] at hl
    simp at hl
  convert hp using 1
  unfold keyPhases
  congr 2
  refine List.map_congr_left fun t _ => List.flatMap_congr fun i hi => ?_
  obtain ⟨_, _, hlt⟩ := (mem_strideLoop (Nat.mul_pos hTB hB) _ _).mp hi
  rw [h i (by omega), h (i + 1) (by omega)]

theorem cellRun_congr {N : ℕ} {keys keys' : ℕ → ℤ} (h : ∀ i < N, keys i = keys' i) {i : ℕ} (hi : i < N) :
    cellRun N keys i = cellRun N keys' i ∧ ∀ j ∈ cellRun N keys i, j < N := by
  unfold cellRun
  constructor
  · have : ∀ l : List ℕ, (∀ j ∈ l, j < N) → l.takeWhile (fun j => decide (keys j = keys i)) =
        l.takeWhile (fun j => decide (keys' j = keys' i)) := by
      intro l
      induction l with
      | nil => intro _; rfl
      | cons j l ih =>
        intro hl
        rw [List.takeWhile_cons, List.takeWhile_cons, ih (fun x hx => hl x (List.mem_cons_of_mem _ hx)),
          h j (hl j List.mem_cons_self), h i hi]
    refine this _ fun j hj => ?_
    rw [List.mem_range'_1] at hj
    omega
  · intro j hj
    have := (List.takeWhile_sublist _).subset hj
    rw [List.mem_range'_1] at this
    omega

/-- What the compaction kernels store are numbers of points. -/
theorem compact_lt {N W : ℕ} (hN : 0 < N) (hW : 0 < W) {sel : ℕ → Bool} {m : StoreMem}
    (h : CompactKernel sel N (launchThreads N W) m) (u : ℕ) (hu : u < ((List.range N).filter sel).length) :
    (m.out u).1 < N := by
  obtain ⟨_, _, hp⟩ := compact_spec _ (launchThreads_pos hN hW) m h
  have : (m.out u).1 ∈ (List.range N).filter sel := by
    rw [← hp.mem_iff]
    exact List.mem_map.mpr ⟨u, List.mem_range.mpr hu, rfl⟩
  exact List.mem_range.mp (List.mem_filter.mp this).1

section
variable {K : Type*} [Field K] {D : ℕ}

/-- **C103, cell averages**: the kernels read the keys and coordinates of the `N` points only
and write the `n` samples only. -/
theorem C103_average_bounds (N Wc Ws Wa : ℕ) (hN : 0 < N) (hWc : 0 < Wc) (hWs : 0 < Ws) (hWa : 0 < Wa)
    (keys keys' : ℕ → ℤ) (nc : Fin D → ℤ) (pts pts' : ℕ → Fin D → K) (hk : ∀ i < N, keys i = keys' i)
    (hp : ∀ i < N, pts i = pts' i) (n : ℕ) (out : ℕ → (Fin D → K) × ℤ)
    (h : AvgRun N Wc Ws Wa keys nc pts n out) :
    AvgRun N Wc Ws Wa keys' nc pts' n out ∧ ∀ u, n ≤ u → out u = (fun _ => 0, 0) := by
  obtain ⟨m, tr, h1, h2, h3, h4⟩ := h
  have hn := countKeys_spec hN (by norm_num) hWc keys n h1
  have hn0 : 0 < n := by
    rw [hn]
    refine List.length_pos_of_mem (a := 0) (List.mem_filter.mpr ⟨List.mem_range.mpr hN, ?_⟩)
    simp [isFirstKey]
  have hT := launchThreads_pos hn0 hWa
  refine ⟨⟨m, tr, countKeys_congr hN (by norm_num) hWc hk n h1,
    compactKernel_congr (fun i hi => isFirstKey_congr hk hi) (launchThreads_pos hN hWs) m h2, ?_, h4⟩, ?_⟩
  · convert h3 using 1
    unfold strideThreads
    refine List.map_congr_left fun t _ => List.flatMap_congr fun u hu => ?_
    obtain ⟨_, _, hlt⟩ := (mem_strideLoop hT _ _).mp hu
    have hf : (m.out u).1 < N := compact_lt hN hWs h2 u (hn ▸ hlt)
    obtain ⟨c1, c2⟩ := cellRun_congr hk hf
    unfold avgBody
    dsimp only
    rw [← c1, hk _ hf]
    congr 3
    funext d
    congr 2
    exact List.map_congr_left fun j hj => by rw [hp j (c2 j hj)]
  · intro u hu
    rw [h4]
    refine runWrites_not_mem _ _ _ ?_
    intro w hw e
    rw [(strideThreads_perm hT _ h3).mem_iff, List.mem_flatMap] at hw
    obtain ⟨i, hi, hw⟩ := hw
    rw [List.mem_range] at hi
    rw [List.mem_singleton.mp hw] at e
    simp only at e
    omega

end

/-- The point a thread of the Poisson kernel works on. -/
def PdThread.ok (N : ℕ) (l : PdThread) : Prop :=
  (∀ i ∈ l.todo, i < N) ∧ match l.cur with
    | .idle => True
    | .scan i rest _ => i < N ∧ ∀ j ∈ rest, j < N
    | .mark i => i < N

theorem pdStep_congr {N : ℕ} {nb nb' : ℕ → List ℕ} (h : ∀ i < N, nb i = nb' i) (hb : ∀ i < N, ∀ j ∈ nb i, j < N)
    (m : PdMem) (l : PdThread) (hl : l.ok N) :
    pdStep nb m l = pdStep nb' m l ∧ ∀ m' l', pdStep nb m l = some (m', l') →
      l'.ok N ∧ ∀ i, N ≤ i → m'.used i = m.used i := by
  obtain ⟨h1, h2⟩ := hl
  obtain ⟨todo, cur⟩ := l
  cases cur with
  | mark i =>
    refine ⟨rfl, ?_⟩
    rintro m' l' ⟨⟩
    refine ⟨⟨h1, trivial⟩, fun j hj => ?_⟩
    exact Function.update_of_ne (by have : i < N := h2; omega) _ _
  | scan i rest v =>
    cases rest with
    | cons j rest =>
      refine ⟨rfl, ?_⟩
      rintro m' l' ⟨⟩
      exact ⟨⟨h1, h2.1, fun x hx => h2.2 x (List.mem_cons_of_mem _ hx)⟩, fun _ _ => rfl⟩
    | nil =>
      cases v with
      | true =>
        refine ⟨rfl, ?_⟩
        rintro m' l' ⟨⟩
        exact ⟨⟨h1, h2.1⟩, fun _ _ => rfl⟩
      | false =>
        refine ⟨rfl, ?_⟩
        rintro m' l' ⟨⟩
        exact ⟨⟨h1, trivial⟩, fun _ _ => rfl⟩
  | idle =>
    cases todo with
    | nil => exact ⟨rfl, by rintro m' l' ⟨⟩⟩
    | cons i todo =>
      have hi : i < N := h1 i List.mem_cons_self
      constructor
      · simp only [pdStep, h i hi]
      · rintro m' l' ⟨⟩
        exact ⟨⟨fun x hx => h1 x (List.mem_cons_of_mem _ hx), hi, hb i hi⟩, fun _ _ => rfl⟩

theorem pdSteps_congr {N T : ℕ} {nb nb' : ℕ → List ℕ} (h : ∀ i < N, nb i = nb' i) (hb : ∀ i < N, ∀ j ∈ nb i, j < N)
    {c c' : PdMem × (Fin T → PdThread)} (hs : Steps (pdStep nb) c c') (h0 : ∀ t, (c.2 t).ok N) :
    Steps (pdStep nb') c c' ∧ (∀ t, (c'.2 t).ok N) ∧ ∀ i, N ≤ i → c'.1.used i = c.1.used i := by
  induction hs with
  | refl => exact ⟨.refl _, h0, fun _ _ => rfl⟩
  | @tail s ls hs t s' l' hst ih =>
    obtain ⟨i1, i2, i3⟩ := ih
    obtain ⟨e1, e2⟩ := pdStep_congr h hb s (ls t) (i2 t)
    obtain ⟨e3, e4⟩ := e2 _ _ hst
    refine ⟨i1.tail t (e1 ▸ hst), ?_, fun i hi => (e4 i hi).trans (i3 i hi)⟩
    intro u
    dsimp only
    by_cases hu : u = t
    · subst hu
      rw [Function.update_self]
      exact e3
    · rw [Function.update_of_ne hu]
      exact i2 u

theorem pdValid_bounds {D : ℕ} {N T numKeys c : ℕ} {keys keys' : ℕ → ℤ} (hk : ∀ i < N, keys i = keys' i) (nc : Fin D → ℤ)
    {firsts : ℕ → ℕ} (hf : ∀ u < numKeys, firsts u < N) (hT : 0 < T) (t : ℕ) :
    pdProg N keys nc c firsts numKeys T t = pdProg N keys' nc c firsts numKeys T t ∧
    ∀ i ∈ pdProg N keys nc c firsts numKeys T t, i < N := by
  unfold pdProg
  constructor
  · refine List.flatMap_congr fun u hu => ?_
    obtain ⟨_, _, hlt⟩ := (mem_strideLoop hT _ _).mp hu
    rw [hk _ (hf u hlt), (cellRun_congr hk (hf u hlt)).1]
  · intro i hi
    obtain ⟨u, hu, hi⟩ := List.mem_flatMap.mp hi
    obtain ⟨_, _, hlt⟩ := (mem_strideLoop hT _ _).mp hu
    split_ifs at hi
    · exact (cellRun_congr hk (hf u hlt)).2 i hi
    · cases hi

theorem pdCalls_congr {D : ℕ} {N T numKeys c : ℕ} {keys keys' : ℕ → ℤ} (hk : ∀ i < N, keys i = keys' i) (nc : Fin D → ℤ)
    {firsts : ℕ → ℕ} (hf : ∀ u < numKeys, firsts u < N) (hT : 0 < T) {nb nb' : ℕ → List ℕ}
    (h : ∀ i < N, nb i = nb' i) (hb : ∀ i < N, ∀ j ∈ nb i, j < N) {m : PdMem}
    (hc : PdCalls N keys nc nb firsts numKeys T c m) :
    PdCalls N keys' nc nb' firsts numKeys T c m ∧ ∀ i, N ≤ i → m.used i = false := by
  induction hc with
  | zero => exact ⟨.zero, fun _ _ => rfl⟩
  | @succ c m m' hc hkern ih =>
    obtain ⟨ls, h1, h2⟩ := hkern
    have hp := fun t : ℕ => pdValid_bounds (c := c) hk nc hf hT t
    obtain ⟨s1, s2, s3⟩ := pdSteps_congr h hb h1 (fun t => ⟨(hp t).2, trivial⟩)
    refine ⟨.succ ih.1 ⟨ls, ?_, ?_⟩, fun i hi => (s3 i hi).trans (ih.2 i hi)⟩
    · simpa only [(hp _).1] using s1
    · intro t
      rw [← (pdStep_congr h hb _ _ (s2 t)).1]
      exact h2 t

/-- Whether a thread has incremented the counter but not yet set its mark. -/
def PdThread.marking (l : PdThread) : ℕ := match l.cur with | .mark _ => 1 | _ => 0

/-- Number of marked points. -/
def PdMem.marked (N : ℕ) (m : PdMem) : ℕ := ((Finset.range N).filter (fun i => m.used i = true)).card

theorem pdStep_marked {nb : ℕ → List ℕ} (N : ℕ) (m m' : PdMem) (l l' : PdThread) (h : pdStep nb m l = some (m', l')) :
    m'.marked N + l'.marking + m.count ≤ m.marked N + l.marking + m'.count := by
  obtain ⟨todo, cur⟩ := l
  cases cur with
  | mark i =>
    obtain ⟨rfl, rfl⟩ : _ ∧ _ := by simpa [pdStep] using h
    have : PdMem.marked N ⟨Function.update m.used i true, m.count⟩ ≤ m.marked N + 1 := by
      unfold PdMem.marked
      refine (Finset.card_le_card (t := insert i ((Finset.range N).filter (fun i => m.used i = true))) ?_).trans
        (Finset.card_insert_le _ _)
      intro j hj
      rw [Finset.mem_filter] at hj
      rw [Finset.mem_insert, Finset.mem_filter]
      by_cases e : j = i
      · exact Or.inl e
      · refine Or.inr ⟨hj.1, ?_⟩
        have : Function.update m.used i true j = true := hj.2
        rwa [Function.update_of_ne e] at this
    simp only [PdThread.marking]
    omega
  | scan i rest v =>
    cases rest with
    | cons j rest =>
      obtain ⟨rfl, rfl⟩ : _ ∧ _ := by simpa [pdStep] using h
      exact le_rfl
    | nil =>
      cases v with
      | true =>
        obtain ⟨rfl, rfl⟩ : _ ∧ _ := by simpa [pdStep] using h
        simp only [PdThread.marking, PdMem.marked]
        omega
      | false =>
        obtain ⟨rfl, rfl⟩ : _ ∧ _ := by simpa [pdStep] using h
        exact le_rfl
  | idle =>
    cases todo with
    | nil => cases h
    | cons i todo =>
      obtain ⟨rfl, rfl⟩ : _ ∧ _ := by simpa [pdStep] using h
      exact le_rfl

theorem pdSteps_marked {N T : ℕ} {nb : ℕ → List ℕ} {c c' : PdMem × (Fin T → PdThread)} (hs : Steps (pdStep nb) c c')
    (h0 : c.1.marked N + ∑ t, (c.2 t).marking ≤ c.1.count) : c'.1.marked N + ∑ t, (c'.2 t).marking ≤ c'.1.count := by
  refine hs.invariant (fun c => c.1.marked N + ∑ t, (c.2 t).marking ≤ c.1.count) h0 ?_
  intro s ls t s' l' hI hst
  have h1 := pdStep_marked N s s' (ls t) l' hst
  dsimp only at hI ⊢
  rw [← Finset.add_sum_erase _ _ (Finset.mem_univ t)] at hI ⊢
  have h2 : ∑ u ∈ Finset.univ.erase t, (Function.update ls t l' u).marking = ∑ u ∈ Finset.univ.erase t, (ls u).marking := by
    refine Finset.sum_congr rfl fun u hu => ?_
    rw [Function.update_of_ne (Finset.ne_of_mem_erase hu)]
  rw [h2, Function.update_self]
  omega

theorem pdCalls_marked {D : ℕ} {N T numKeys c : ℕ} {keys : ℕ → ℤ} {nc : Fin D → ℤ} {firsts : ℕ → ℕ} {nb : ℕ → List ℕ}
    {m : PdMem} (hc : PdCalls N keys nc nb firsts numKeys T c m) : m.marked N ≤ m.count := by
  induction hc with
  | zero => simp [PdMem.marked]
  | @succ c m m' hc hkern ih =>
    obtain ⟨ls, h1, _⟩ := hkern
    have := pdSteps_marked (N := N) h1 (by simpa [PdThread.marking] using ih)
    dsimp only at this
    omega

/-- **C103, Poisson disk sampling**: the kernels read the keys and neighbours of the `N`
points only, and write only the `n` entries of the output. -/
theorem C103_poisson_bounds {D : ℕ} (N Wc Ws Wp Wo : ℕ) (hN : 0 < N) (hWc : 0 < Wc) (hWs : 0 < Ws) (hWp : 0 < Wp)
    (hWo : 0 < Wo) (keys keys' : ℕ → ℤ) (nc : Fin D → ℤ) (nb nb' : ℕ → List ℕ) (hk : ∀ i < N, keys i = keys' i)
    (hnb : ∀ i < N, nb i = nb' i) (hb : ∀ i < N, ∀ j ∈ nb i, j < N) (n : ℕ) (out : StoreMem)
    (h : PdRun N Wc Ws Wp Wo keys nc nb n out) :
    PdRun N Wc Ws Wp Wo keys' nc nb' n out ∧ (∀ w ∈ out.writes, w.1 < n) := by
  obtain ⟨numKeys, m, pm, h1, h2, h3, h4, h5⟩ := h
  have hn := countKeys_spec hN (by norm_num) hWc keys numKeys h1
  have hn0 : 0 < numKeys := by
    rw [hn]
    refine List.length_pos_of_mem (a := 0) (List.mem_filter.mpr ⟨List.mem_range.mpr hN, ?_⟩)
    simp [isFirstKey]
  have hf : ∀ u < numKeys, (m.out u).1 < N := fun u hu => compact_lt hN hWs h2 u (hn ▸ hu)
  refine ⟨⟨numKeys, m, pm, countKeys_congr hN (by norm_num) hWc hk _ h1,
    compactKernel_congr (fun i hi => isFirstKey_congr hk hi) (launchThreads_pos hN hWs) m h2,
    (pdCalls_congr hk nc hf (launchThreads_pos hn0 hWp) hnb hb h3).1, h4, h5⟩, ?_⟩
  intro w hw
  obtain ⟨_, hperm, _⟩ := compact_spec _ (launchThreads_pos hN hWo) out h4
  have hm := List.mem_map_of_mem (f := Prod.fst) hw
  rw [hperm.mem_iff, List.mem_range] at hm
  refine hm.trans_le (le_trans (le_of_eq ?_) ((pdCalls_marked h3).trans_eq h5.symm))
  unfold PdMem.marked
  rw [← List.toFinset_card_of_nodup (List.nodup_range.filter _), List.toFinset_filter, List.toFinset_range]

/-- Runs of both samplings exist for all arrays, see `C60_run_exists` and `C61_run_exists`. -/
example : ∃ n out, PdRun 2 1 1 1 1 (fun i => if i = 0 then 1 else 0) (fun _ : Fin 2 => 2) (fun i => [i]) n out :=
  C60_run_exists _ _ _ _ _ _ _ _

end PC
