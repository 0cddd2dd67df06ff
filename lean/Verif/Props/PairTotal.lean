import Verif.PairTotal
import Verif.Props.SearchInt

/-!
# C151: the number of pairs in 32 bits
-/

set_option linter.unusedVariables false

namespace PC

theorem int32_of_lt {x : ℕ} (h : x < 2 ^ 31) : int32 x = x := by
  unfold int32
  rw [Int.bmod_def]
  omega

theorem int32_neg {x : ℕ} (h1 : 2 ^ 31 ≤ x) (h2 : x < 2 ^ 32) : int32 x = (x : ℤ) - 2 ^ 32 := by
  unfold int32
  rw [Int.bmod_def]
  omega

theorem countP_range_le (a t : ℕ) : (List.range t).countP (fun i => decide (a ≤ i)) = t - a := by
  induction t with
  | zero => simp
  | succ t ih =>
    rw [List.range_succ, List.countP_append, ih, List.countP_singleton]
    by_cases h : a ≤ t
    · simp [h]; omega
    · simp [h]; omega

theorem countP_neg {α : Type*} (l : List (ℕ × α)) (nn q : ℕ) (h : (l.map Prod.fst).Perm (List.range nn)) (f : ℕ → ℤ)
    (hf : ∀ x < nn, f x < 0 ↔ q ≤ x) : (l.map (fun w => (f w.1, w.2))).countP (fun w => decide (w.1 < 0)) = nn - q := by
  rw [← countP_range_le, ← h.countP_eq, List.countP_map, List.countP_map]
  refine List.countP_congr fun w hw => ?_
  have hlt : w.1 ∈ List.range nn := h.subset (List.mem_map_of_mem hw)
  rw [List.mem_range] at hlt
  simpa using hf _ hlt

theorem int32_neg_iff {x nn : ℕ} (hn : nn < 2 ^ 32) (hx : x < nn) : int32 x < 0 ↔ 2 ^ 31 ≤ x := by
  by_cases h : 2 ^ 31 ≤ x
  · rw [int32_neg h (by omega)]
    omega
  · rw [int32_of_lt (by omega)]
    omega

/-- The number of pairs, counted by centres. -/
def pairTotal (S R : ℕ) (rgs : List (ℕ → ℕ × ℕ)) (hit : ℕ → ℕ → Bool) : ℕ :=
  ∑ s ∈ Finset.range S, (rgs.map (fun rg => ∑ r ∈ Finset.range R,
    ((Finset.Ico (rg (s * R + r)).1 (rg (s * R + r)).2).filter (fun i => hit s i)).card)).sum

theorem counts32 {S : ℕ} (hS : S * 144 < 2 ^ 32) {Wc : ℕ} (hWc : 0 < Wc) {rgs : List (ℕ → ℕ × ℕ)}
    {hit : ℕ → ℕ → Bool} {cnt : ℕ → ℕ} (h : CountPasses32 S 9 64 Wc hit rgs (fun _ => 0) cnt) :
    ∑ s ∈ Finset.range S, cnt s = pairTotal S 9 rgs hit :=
  Finset.sum_congr rfl fun s hs => C58_counts S 9 64 Wc (by norm_num) hWc rgs hit cnt
    ((countPasses32_iff (by omega) hit rgs _ _).mp h) s (Finset.mem_range.mp hs)

/-- **C151, rows.** The tensor of the pairs has as many rows as there are pairs, modulo `2^32`, for every
launch geometry and schedule. -/
theorem C151_rows (S : ℕ) (hS0 : 0 < S) (hS : S * 144 < 2 ^ 32) (Wc Ws Wn : ℕ) (hWc : 0 < Wc) (hWs : 0 < Ws)
    (rgs : List (ℕ → ℕ × ℕ)) (hit : ℕ → ℕ → Bool) (nn : ℕ) (ends : ℕ → ℤ) (writes : List (ℤ × (ℕ × ℕ)))
    (h : FindRunInt S 9 Wc Ws Wn rgs hit nn ends writes) : nn = pairTotal S 9 rgs hit % 2 ^ 32 := by
  obtain ⟨cnt, start, out, tot, res, h1, h2, h3, rfl, h5, h6, h7⟩ := h
  rw [C57_total Ws S hWs hS0 _ _ _ h2, ← counts32 hS hWc h1, ← Nat.cast_sum, ZMod.val_natCast]

/-- Below `2^32` pairs the counters are those of unbounded integers. -/
theorem findRunInt_below {S : ℕ} (hS0 : 0 < S) (hS : S * 144 < 2 ^ 32) {Wc Ws Wn : ℕ} (hWc : 0 < Wc) (hWs : 0 < Ws)
    (hone : S ≤ 512 + Ws * 64)
    {rgs : List (ℕ → ℕ × ℕ)} {hit : ℕ → ℕ → Bool} {nn : ℕ} {ends : ℕ → ℤ} {writes : List (ℤ × (ℕ × ℕ))}
    (h : FindRunInt S 9 Wc Ws Wn rgs hit nn ends writes) (ht : pairTotal S 9 rgs hit < 2 ^ 32) :
    ∃ res, FindRun S 9 Wc Ws Wn rgs hit nn res ∧ (ends = fun s => int32 (res.cnt s)) ∧
      writes = res.writes.map (fun w => (int32 w.1, w.2)) := by
  have hnn := C151_rows S hS0 hS Wc Ws Wn hWc hWs rgs hit nn ends writes h
  rw [Nat.mod_eq_of_lt ht] at hnn
  obtain ⟨cnt, start, out, tot, res, h1, h2, h3, h4, h5, h6, h7⟩ := h
  have hsum := counts32 hS hWc h1
  have hst : ∀ s < S, start s = ∑ x ∈ Finset.range s, cnt x := by
    intro s hs
    rw [h3 s hs, (C57_scan_partial Ws S hWs hS0 hone _ _ _ h2).1 s hs, ← Nat.cast_sum, ZMod.val_natCast]
    refine Nat.mod_eq_of_lt (lt_of_le_of_lt ?_ ht)
    rw [← hsum]
    exact Finset.sum_le_sum_of_subset (Finset.range_subset_range.mpr hs.le)
  refine ⟨res, ((C106_exact S hS Wc Ws Wn rgs hit nn res).1).mp ?_, h6, h7⟩
  obtain ⟨out', tot', h2'⟩ := C57_run_exists Ws S (fun i => (cnt i : ℤ))
  obtain ⟨e1, e2⟩ := C57_scan_partial Ws S hWs hS0 hone _ _ _ h2'
  refine ⟨cnt, start, out', h1, ?_, ?_, h5⟩
  · have : (nn : ℤ) = tot' := by rw [e2, hnn, ← hsum]; push_cast; rfl
    rw [this]
    exact h2'
  · intro s hs
    rw [e1 s hs, hst s hs]
    push_cast
    rfl

/-- **C151 (partial).** With fewer than `2^31` pairs the operation of the machine has exactly the results of the
operation with unbounded integers: the same number of rows, the same ends of the centres' rows, the same
writes.  Missing: `2^31` pairs and more, see `C151_pairs_false`. -/
theorem C151_pairs_partial (S : ℕ) (hS0 : 0 < S) (hS : S * 144 < 2 ^ 32) (Wc Ws Wn : ℕ) (hWc : 0 < Wc) (hWs : 0 < Ws)
    (hWn : 0 < Wn) (hone : S ≤ 512 + Ws * 64) (rgs : List (ℕ → ℕ × ℕ)) (hit : ℕ → ℕ → Bool) (nn : ℕ)
    (ends : ℕ → ℤ) (writes : List (ℤ × (ℕ × ℕ)))
    (h : FindRunInt S 9 Wc Ws Wn rgs hit nn ends writes) (ht : pairTotal S 9 rgs hit < 2 ^ 31) :
    ∃ res, FindRun S 9 Wc Ws Wn rgs hit nn res ∧ (∀ s < S, ends s = res.cnt s) ∧
      writes = res.writes.map (fun w => ((w.1 : ℤ), w.2)) := by
  obtain ⟨res, hr, he, hw⟩ := findRunInt_below hS0 hS hWc hWs hone h (by omega)
  obtain ⟨t1, t2, t3, _⟩ := C58_store_partial S 9 Wc Ws Wn hWc hWs hWn (by norm_num) hS0 hone rgs hit nn res hr _ rfl
  have t1' : nn = pairTotal S 9 rgs hit := t1
  refine ⟨res, hr, ?_, ?_⟩
  · intro s hs
    rw [he]
    refine int32_of_lt (lt_of_le_of_lt ?_ ht)
    rw [t2 s hs]
    exact Finset.sum_le_sum_of_subset (Finset.range_subset_range.mpr hs)
  · rw [hw]
    refine List.map_congr_left fun w hw => ?_
    have : w.1 ∈ List.range nn := t3.subset (List.mem_map_of_mem hw)
    rw [List.mem_range] at this
    rw [int32_of_lt (by omega)]

/-- **C151, beyond the limit.** With at least `2^31` and fewer than `2^32` pairs the pairs after the first `2^31` are
written to negative positions, outside of the tensor. -/
theorem C151_outside (S : ℕ) (hS0 : 0 < S) (hS : S * 144 < 2 ^ 32) (Wc Ws Wn : ℕ) (hWc : 0 < Wc) (hWs : 0 < Ws)
    (hWn : 0 < Wn) (hone : S ≤ 512 + Ws * 64) (rgs : List (ℕ → ℕ × ℕ)) (hit : ℕ → ℕ → Bool) (nn : ℕ)
    (ends : ℕ → ℤ) (writes : List (ℤ × (ℕ × ℕ)))
    (h : FindRunInt S 9 Wc Ws Wn rgs hit nn ends writes) (h1 : 2 ^ 31 ≤ pairTotal S 9 rgs hit)
    (h2 : pairTotal S 9 rgs hit < 2 ^ 32) :
    writes.countP (fun w => decide (w.1 < 0)) = pairTotal S 9 rgs hit - 2 ^ 31 := by
  obtain ⟨res, hr, he, hw⟩ := findRunInt_below hS0 hS hWc hWs hone h h2
  obtain ⟨t1, t2, t3, _⟩ := C58_store_partial S 9 Wc Ws Wn hWc hWs hWn (by norm_num) hS0 hone rgs hit nn res hr _ rfl
  have t1' : nn = pairTotal S 9 rgs hit := t1
  rw [hw, ← t1']
  exact countP_neg res.writes nn _ t3 int32 fun x hx => int32_neg_iff (by omega) hx

/-- The operation always has a run. -/
theorem C151_run_exists (S R Wc Ws Wn : ℕ) (rgs : List (ℕ → ℕ × ℕ)) (hit : ℕ → ℕ → Bool) :
    ∃ nn ends writes, FindRunInt S R Wc Ws Wn rgs hit nn ends writes := by
  have e1 : ∀ (rgs : List (ℕ → ℕ × ℕ)) (c : ℕ → ℕ), ∃ c', CountPasses32 S R 64 Wc hit rgs c c' := by
    intro rgs
    induction rgs with
    | nil => exact fun c => ⟨c, .nil c⟩
    | cons rg rest ih =>
      intro c
      obtain ⟨c1, h1⟩ := exists_countLaunch (findIters32 S R) R 64 Wc hit rg c
      obtain ⟨c2, h2⟩ := ih c1
      exact ⟨c2, .cons h1 h2⟩
  have e2 : ∀ (rgs : List (ℕ → ℕ × ℕ)) (m : StoreMem),
      ∃ m', StorePasses32 S R (storeThreads32 S R 64 Wn) hit rgs m m' := by
    intro rgs
    induction rgs with
    | nil => exact fun m => ⟨m, .nil m⟩
    | cons rg rest ih =>
      intro m
      obtain ⟨m1, h1⟩ := exists_storeKernel32 S R (storeThreads32 S R 64 Wn) rg hit m
      obtain ⟨m2, h2⟩ := ih m1
      exact ⟨m2, .cons h1 h2⟩
  obtain ⟨cnt, h1⟩ := e1 rgs (fun _ => 0)
  obtain ⟨out, tot, h2⟩ := C57_run_exists Ws S (fun i => (cnt i : ZMod (2 ^ 32)))
  obtain ⟨res, h3⟩ := e2 rgs ⟨fun s => (out s).val, []⟩
  exact ⟨_, _, _, cnt, _, out, tot, res, h1, h2, fun s _ => rfl, rfl, h3, rfl, rfl⟩

/-- Ranges for `n` centres that all have the same `n` neighbours (all points closer together than the radius). -/
def crowdRanges (n : ℕ) : List (ℕ → ℕ × ℕ) := [fun i => if i % 9 = 4 then (0, n) else (0, 0)]

theorem pairTotal_crowd (n : ℕ) : pairTotal n 9 (crowdRanges n) (fun _ _ => true) = n * n := by
  unfold pairTotal crowdRanges
  have : ∀ s, (∑ r ∈ Finset.range 9, ((Finset.Ico ((if (s * 9 + r) % 9 = 4 then (0, n) else (0, 0) : ℕ × ℕ)).1
      ((if (s * 9 + r) % 9 = 4 then (0, n) else (0, 0) : ℕ × ℕ)).2).filter (fun i => True)).card) = n := by
    intro s
    have : ∀ r ∈ Finset.range 9, ((Finset.Ico ((if (s * 9 + r) % 9 = 4 then (0, n) else (0, 0) : ℕ × ℕ)).1
      ((if (s * 9 + r) % 9 = 4 then (0, n) else (0, 0) : ℕ × ℕ)).2).filter (fun i => True)).card =
      if r = 4 then n else 0 := by
      intro r hr
      rw [Finset.mem_range] at hr
      have e : (s * 9 + r) % 9 = r := by omega
      rw [e]
      split <;> simp
    rw [Finset.sum_congr rfl this, Finset.sum_ite_eq' (Finset.range 9) 4]
    simp
  simp only [List.map_cons, List.map_nil, List.sum_cons, List.sum_nil, Nat.add_zero, this]
  rw [Finset.sum_const, Finset.card_range, smul_eq_mul]

/-- **C151 fails for many pairs**: 46341 points closer together than the radius have more than `2^31` pairs. -/
theorem C151_pairs_false : ¬ ∀ (S Wc Ws Wn : ℕ), 0 < S → S * 144 < 2 ^ 32 → 0 < Wc → 0 < Ws → 0 < Wn →
    S ≤ 512 + Ws * 64 → ∀ (rgs : List (ℕ → ℕ × ℕ)) (hit : ℕ → ℕ → Bool) (nn : ℕ) (ends : ℕ → ℤ)
      (writes : List (ℤ × (ℕ × ℕ))), FindRunInt S 9 Wc Ws Wn rgs hit nn ends writes →
      ∀ w ∈ writes, 0 ≤ w.1 ∧ w.1 < nn := by
  intro H
  obtain ⟨nn, ends, writes, h⟩ := C151_run_exists 46341 9 1 1000 1 (crowdRanges 46341) (fun _ _ => true)
  have hw := H 46341 1 1000 1 (by norm_num) (by norm_num) (by norm_num) (by norm_num) (by norm_num) (by norm_num)
    _ _ _ _ _ h
  have hc := C151_outside 46341 (by norm_num) (by norm_num) 1 1000 1 (by norm_num) (by norm_num) (by norm_num)
    (by norm_num) _ _ _ _ _ h (by rw [pairTotal_crowd]; norm_num) (by rw [pairTotal_crowd]; norm_num)
  rw [pairTotal_crowd] at hc
  have h0 : writes.countP (fun w => decide (w.1 < 0)) = 0 := by
    rw [List.countP_eq_zero]
    intro w hx
    have := (hw w hx).1
    simpa using this
  rw [h0] at hc
  norm_num at hc

/-- A case of `C151_pairs_partial`: 1000 points in one place have a million pairs. -/
example : ∃ nn ends writes, FindRunInt 1000 9 1 8 1 (crowdRanges 1000) (fun _ _ => true) nn ends writes ∧
    nn = 1000000 ∧ ∀ w ∈ writes, 0 ≤ w.1 := by
  obtain ⟨nn, ends, writes, h⟩ := C151_run_exists 1000 9 1 8 1 (crowdRanges 1000) (fun _ _ => true)
  have ht := pairTotal_crowd 1000
  have hn := C151_rows 1000 (by norm_num) (by norm_num) 1 8 1 (by norm_num) (by norm_num) _ _ _ _ _ h
  obtain ⟨res, _, _, hw⟩ := C151_pairs_partial 1000 (by norm_num) (by norm_num) 1 8 1 (by norm_num) (by norm_num)
    (by norm_num) (by norm_num) _ _ _ _ _ h (by rw [ht]; norm_num)
  refine ⟨nn, ends, writes, h, by rw [hn, ht]; norm_num, ?_⟩
  rw [hw]
  intro w hx
  obtain ⟨y, _, rfl⟩ := List.mem_map.mp hx
  exact Int.natCast_nonneg _

end PC
