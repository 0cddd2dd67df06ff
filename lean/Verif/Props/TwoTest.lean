import Verif.TwoTest
import Verif.Props.CudaStore

/-!
# Properties of the two evaluations of the distance test (C145)
-/

set_option linter.unusedVariables false

namespace PC

/-- Specification: the number of positions in the ranges of sample `s` for which the test holds. -/
def numFound (R : ℕ) (rgs : List (ℕ → ℕ × ℕ)) (hit : ℕ → ℕ → Bool) (s : ℕ) : ℕ :=
  (rgs.map (fun rg => ∑ r ∈ Finset.range R,
    ((Finset.Ico (rg (s * R + r)).1 (rg (s * R + r)).2).filter (fun i => hit s i)).card)).sum

theorem numFound_eq (R : ℕ) (rgs : List (ℕ → ℕ × ℕ)) (hit : ℕ → ℕ → Bool) (s : ℕ) :
    numFound R rgs hit s = (allFinds R rgs hit s).length := (allFinds_length R rgs hit s).symm

/-- What a run does when the tests may differ: slots are given out by the first test and filled by
the second. -/
theorem findRun2_spec (S R Wc Ws Wn : ℕ) (hWc : 0 < Wc) (hWs : 0 < Ws) (hWn : 0 < Wn) (hR : 0 < R)
    (hS : 0 < S) (hone : S ≤ 512 + Ws * 64) (rgs : List (ℕ → ℕ × ℕ)) (hitC hitS : ℕ → ℕ → Bool)
    (total : ℕ) (res : StoreMem) (h : FindRun2 S R Wc Ws Wn rgs hitC hitS total res) :
    total = ∑ x ∈ Finset.range S, numFound R rgs hitC x ∧
    ∃ (start : ℕ → ℕ) (items : List (ℕ × ℕ)),
      (∀ s < S, start s = ∑ x ∈ Finset.range s, numFound R rgs hitC x) ∧
      Stored start items res ∧
      items.Perm ((List.range S).flatMap (fun s => (allFinds R rgs hitS s).map (fun p => (p, s)))) := by
  obtain ⟨cnt, start, out, h1, h2, h3, h4⟩ := h
  have hcnt : ∀ s < S, cnt s = numFound R rgs hitC s := by
    intro s hs
    rw [countPasses_spec (by norm_num) hWc rgs hitC _ _ h1 s hs, Nat.zero_add, numFound_eq]
  obtain ⟨e1, e2⟩ := C57_scan_partial Ws S hWs hS hone _ out _ h2
  have hstart : ∀ s < S, start s = ∑ x ∈ Finset.range s, numFound R rgs hitC x := by
    intro s hs
    have := h3 s hs
    rw [e1 s hs, ← Nat.cast_sum] at this
    rw [Int.ofNat_inj.mp this]
    refine Finset.sum_congr rfl ?_
    intro x hx
    exact hcnt x (by have := Finset.mem_range.mp hx; omega)
  have htot : total = ∑ x ∈ Finset.range S, numFound R rgs hitC x := by
    rw [← Nat.cast_sum] at e2
    rw [Int.ofNat_inj.mp e2]
    exact Finset.sum_congr rfl (fun x hx => hcnt x (Finset.mem_range.mp hx))
  have hT : 0 < storeThreads S R 64 Wn := by
    unfold storeThreads launchBlocks
    have hM : 0 < execBlocks (findIters S R) 64 := by
      rw [lt_execBlocks (by norm_num)]
      unfold findIters threadsPerRange
      rw [Nat.zero_mul]
      positivity
    split <;> omega
  obtain ⟨items, i1, i2⟩ := storePasses_spec hT hitS rgs start (fun _ => []) [] ⟨start, []⟩ res
    ⟨fun s => rfl, List.Perm.refl _⟩ (by
      rw [List.flatMap_eq_nil_iff.mpr]; intro x _; rfl) h4
  simp only [List.nil_append] at i2
  exact ⟨htot, start, items, hstart, i1, i2⟩

/-- The op always has a run, whatever the two tests say. -/
theorem C145_run_exists (S R Wc Ws Wn : ℕ) (hWs : 0 < Ws) (hS : 0 < S) (hone : S ≤ 512 + Ws * 64)
    (rgs : List (ℕ → ℕ × ℕ)) (hitC hitS : ℕ → ℕ → Bool) :
    ∃ total res, FindRun2 S R Wc Ws Wn rgs hitC hitS total res := by
  obtain ⟨cnt, h1⟩ := exists_countPasses S R 64 Wc hitC rgs (fun _ => 0)
  obtain ⟨out, tot, h2⟩ := C57_run_exists Ws S (fun i => (cnt i : ℤ))
  obtain ⟨e1, e2⟩ := C57_scan_partial Ws S hWs hS hone _ out tot h2
  obtain ⟨res, h3⟩ := exists_storePasses S R (storeThreads S R 64 Wn) hitS rgs
    ⟨fun s => ∑ x ∈ Finset.range s, cnt x, []⟩
  refine ⟨∑ x ∈ Finset.range S, cnt x, res, cnt, _, out, h1, ?_, ?_, h3⟩
  · have : ((∑ x ∈ Finset.range S, cnt x : ℕ) : ℤ) = tot := by rw [e2]; push_cast; rfl
    rw [this]; exact h2
  · intro s hs
    rw [e1 s hs]; push_cast; rfl

section
variable (S R Wc Ws Wn : ℕ) (hWc : 0 < Wc) (hWs : 0 < Ws) (hWn : 0 < Wn) (hR : 0 < R)
    (hS : 0 < S) (hone : S ≤ 512 + Ws * 64) (rgs : List (ℕ → ℕ × ℕ)) (hitC hitS : ℕ → ℕ → Bool)
    (total : ℕ) (res : StoreMem) (h : FindRun2 S R Wc Ws Wn rgs hitC hitS total res)
include hWc hWs hWn hR hS hone h

/-- **C145, which slots are written.** In every run and for every pair of outcomes, the pairs of
sample `s` are written to consecutive slots beginning where the counts of the samples before it end:
as many slots as the storing kernel finds, not as many as were counted.  The output has as many
slots as were counted. -/
theorem C145_slots :
    total = ∑ x ∈ Finset.range S, numFound R rgs hitC x ∧
    (∀ s < S, ((res.writes.filter (fun w => w.2.2 = s)).map Prod.fst).Perm
      (List.range' (∑ x ∈ Finset.range s, numFound R rgs hitC x) (numFound R rgs hitS s))) ∧
    (∀ s < S, res.cnt s = (∑ x ∈ Finset.range s, numFound R rgs hitC x) + numFound R rgs hitS s) ∧
    (∀ w ∈ res.writes, w.2.2 < S ∧ hitS w.2.2 w.2.1 = true) := by
  obtain ⟨h1, start, items, h2, h3, h4⟩ :=
    findRun2_spec S R Wc Ws Wn hWc hWs hWn hR hS hone rgs hitC hitS total res h
  have hc : ∀ s < S, items.countP (fun y => y.2 = s) = numFound R rgs hitS s := by
    intro s hs
    rw [h4.countP_eq, pairs_count, if_pos hs, numFound_eq]
  refine ⟨h1, ?_, ?_, ?_⟩
  · intro s hs
    have e1 := assignSlots_slots start items s
    rw [hc s hs, h2 s hs] at e1
    rw [← e1]
    exact ((h3.writes.filter _).map _).trans (List.reverse_perm _).symm
  · intro s hs
    rw [h3.cnt, h2 s hs, hc s hs]
  · intro w hw
    have hw' := h3.writes.mem_iff.mp hw
    have := List.mem_map_of_mem (f := Prod.snd) hw'
    rw [assignSlots_items, h4.mem_iff, List.mem_flatMap] at this
    obtain ⟨x, hx, hy⟩ := this
    obtain ⟨p, hp, e⟩ := List.mem_map.mp hy
    rw [← e]
    refine ⟨List.mem_range.mp hx, ?_⟩
    simp only [allFinds, passFinds, List.mem_flatMap, List.mem_filter] at hp
    obtain ⟨_, _, _, _, _, hh⟩ := hp
    exact hh

/-- **C145, safe case.** If the storing kernel finds for no sample more than was counted, every write
is inside the output, in the range of its sample, and no slot is written twice. -/
theorem C145_safe (hle : ∀ s < S, numFound R rgs hitS s ≤ numFound R rgs hitC s) :
    (∀ w ∈ res.writes, w.1 < total ∧ ∑ x ∈ Finset.range w.2.2, numFound R rgs hitC x ≤ w.1 ∧
      w.1 < ∑ x ∈ Finset.range (w.2.2 + 1), numFound R rgs hitC x) ∧
    (res.writes.map Prod.fst).Nodup := by
  obtain ⟨h1, start, items, h2, h3, h4⟩ :=
    findRun2_spec S R Wc Ws Wn hWc hWs hWn hR hS hone rgs hitC hitS total res h
  have hc : ∀ s < S, items.countP (fun y => y.2 = s) = numFound R rgs hitS s := by
    intro s hs
    rw [h4.countP_eq, pairs_count, if_pos hs, numFound_eq]
  have hmono : ∀ a b, a ≤ b → ∑ x ∈ Finset.range a, numFound R rgs hitC x ≤
      ∑ x ∈ Finset.range b, numFound R rgs hitC x := by
    intro a b hab
    exact Finset.sum_le_sum_of_subset (Finset.range_subset_range.mpr hab)
  have hin : ∀ s, s ∈ items.map Prod.snd → s < S := by
    intro s hs
    obtain ⟨y, hy, rfl⟩ := List.mem_map.mp hs
    rw [h4.mem_iff, List.mem_flatMap] at hy
    obtain ⟨x, hx, hy⟩ := hy
    obtain ⟨p, _, rfl⟩ := List.mem_map.mp hy
    exact List.mem_range.mp hx
  constructor
  · intro w hw
    have hw' := h3.writes.mem_iff.mp hw
    have hr := assignSlots_range start items w hw'
    have hws : w.2.2 < S := by
      apply hin
      have := List.mem_map_of_mem (f := Prod.snd) hw'
      rw [assignSlots_items] at this
      exact List.mem_map_of_mem this
    rw [hc _ hws, h2 _ hws] at hr
    have h5 := hle _ hws
    have h6 := hmono (w.2.2 + 1) S (by omega)
    rw [Finset.sum_range_succ] at h6 ⊢
    rw [h1]
    omega
  · refine (h3.writes.map Prod.fst).nodup_iff.mpr (assignSlots_nodup start items ?_)
    intro s s' hss hs'
    have hlt := hin s' hs'
    rw [hc s (by omega), h2 s (by omega), h2 s' hlt]
    have h5 := hle s (by omega)
    have h6 := hmono (s + 1) s' (by omega)
    rw [Finset.sum_range_succ] at h6
    omega

/-- A slot that sample `s` writes. -/
theorem mem_slots2 {s : ℕ} (hs : s < S) {a : ℕ}
    (ha : ∑ x ∈ Finset.range s, numFound R rgs hitC x ≤ a)
    (hb : a < (∑ x ∈ Finset.range s, numFound R rgs hitC x) + numFound R rgs hitS s) :
    ∃ w ∈ res.writes, w.1 = a ∧ w.2.2 = s := by
  have h1 := (C145_slots S R Wc Ws Wn hWc hWs hWn hR hS hone rgs hitC hitS total res h).2.1 s hs
  have : a ∈ (res.writes.filter (fun w => w.2.2 = s)).map Prod.fst := by
    rw [h1.mem_iff, List.mem_range'_1]; exact ⟨ha, hb⟩
  obtain ⟨w, hw, e⟩ := List.mem_map.mp this
  rw [List.mem_filter] at hw
  exact ⟨w, hw.1, e, by simpa using hw.2⟩

/-- **C145, overrun.** If the storing kernel finds more for the last sample than was counted, every
run writes past the end of the output. -/
theorem C145_overrun (hgt : numFound R rgs hitC (S - 1) < numFound R rgs hitS (S - 1)) :
    ∃ w ∈ res.writes, w.1 = total := by
  have h1 := (C145_slots S R Wc Ws Wn hWc hWs hWn hR hS hone rgs hitC hitS total res h).1
  have e : S = (S - 1) + 1 := by omega
  have h2 : total = (∑ x ∈ Finset.range (S - 1), numFound R rgs hitC x) + numFound R rgs hitC (S - 1) := by
    rw [h1, ← Finset.sum_range_succ, ← e]
  obtain ⟨w, hw, e1, _⟩ := mem_slots2 S R Wc Ws Wn hWc hWs hWn hR hS hone rgs hitC hitS total res h
    (s := S - 1) (by omega) (a := total) (by omega) (by omega)
  exact ⟨w, hw, e1⟩

/-- **C145, collision.** If the storing kernel finds more for a sample than was counted, and
something was counted and is found for the next sample, every run writes the first slot of the next
sample from both. -/
theorem C145_collision (s : ℕ) (hs : s + 1 < S) (hgt : numFound R rgs hitC s < numFound R rgs hitS s)
    (hn : 0 < numFound R rgs hitS (s + 1)) :
    ∃ w ∈ res.writes, ∃ w' ∈ res.writes, w.1 = w'.1 ∧ w.2.2 = s ∧ w'.2.2 = s + 1 := by
  obtain ⟨w, hw, e1, e2⟩ := mem_slots2 S R Wc Ws Wn hWc hWs hWn hR hS hone rgs hitC hitS total res h
    (s := s) (by omega) (a := ∑ x ∈ Finset.range (s + 1), numFound R rgs hitC x)
    (by rw [Finset.sum_range_succ]; omega) (by rw [Finset.sum_range_succ]; omega)
  obtain ⟨w', hw', e1', e2'⟩ := mem_slots2 S R Wc Ws Wn hWc hWs hWn hR hS hone rgs hitC hitS total res h
    (s := s + 1) (by omega) (a := ∑ x ∈ Finset.range (s + 1), numFound R rgs hitC x)
    le_rfl (by omega)
  exact ⟨w, hw, w', hw', by rw [e1, e1'], e2, e2'⟩

/-- **C145, invented pair.** If the storing kernel finds fewer for some sample than were counted and
for no sample more, the last slot counted for that sample is never written: the op returns the pair
`(0, 0)` there, in every run. -/
theorem C145_invented (hle : ∀ x < S, numFound R rgs hitS x ≤ numFound R rgs hitC x) (s : ℕ) (hs : s < S)
    (hlt : numFound R rgs hitS s < numFound R rgs hitC s) :
    ∃ a < total, (∀ w ∈ res.writes, w.1 ≠ a) ∧ res.out a = (0, 0) ∧
      ∑ x ∈ Finset.range s, numFound R rgs hitC x ≤ a ∧
      a < ∑ x ∈ Finset.range (s + 1), numFound R rgs hitC x := by
  obtain ⟨h1, h2, -, h4⟩ := C145_slots S R Wc Ws Wn hWc hWs hWn hR hS hone rgs hitC hitS total res h
  have hsafe := (C145_safe S R Wc Ws Wn hWc hWs hWn hR hS hone rgs hitC hitS total res h hle).1
  have hmono : ∀ a b, a ≤ b → ∑ x ∈ Finset.range a, numFound R rgs hitC x ≤
      ∑ x ∈ Finset.range b, numFound R rgs hitC x := by
    intro a b hab
    exact Finset.sum_le_sum_of_subset (Finset.range_subset_range.mpr hab)
  have e := Finset.sum_range_succ (fun x => numFound R rgs hitC x) s
  have hS' := hmono (s + 1) S (by omega)
  have hno : ∀ w ∈ res.writes, w.1 ≠ (∑ x ∈ Finset.range s, numFound R rgs hitC x) + numFound R rgs hitS s := by
    intro w hw ew
    obtain ⟨_, g2, g3⟩ := hsafe w hw
    have hws : w.2.2 = s := by
      rcases Nat.lt_trichotomy w.2.2 s with hl | hl | hl
      · have := hmono (w.2.2 + 1) s (by omega); omega
      · exact hl
      · have := hmono (s + 1) w.2.2 (by omega); omega
    have hm : w.1 ∈ (res.writes.filter (fun w => w.2.2 = s)).map Prod.fst :=
      List.mem_map_of_mem (List.mem_filter.mpr ⟨hw, by simpa using hws⟩)
    rw [(h2 s hs).mem_iff, List.mem_range'_1] at hm
    omega
  refine ⟨_, ?_, hno, ?_, by omega, ?_⟩
  · rw [h1]; omega
  · unfold StoreMem.out
    rw [runWrites_not_mem]
    intro w hw
    exact hno w hw
  · omega

/-- **C145, equal counts.** If for every sample as many positions are found as were counted — in
particular if both evaluations agree — the op returns for every sample exactly the positions for
which the storing kernel's test holds, each slot written exactly once. -/
theorem C145_equal_partial (heq : ∀ s < S, numFound R rgs hitS s = numFound R rgs hitC s) :
    (res.writes.map Prod.fst).Perm (List.range total) ∧
    (∀ s < S, res.cnt s = ∑ x ∈ Finset.range (s + 1), numFound R rgs hitC x) ∧
    (∀ w ∈ res.writes, res.out w.1 = w.2) := by
  obtain ⟨h1, h2, h3, h4⟩ := C145_slots S R Wc Ws Wn hWc hWs hWn hR hS hone rgs hitC hitS total res h
  obtain ⟨g1, g2⟩ := C145_safe S R Wc Ws Wn hWc hWs hWn hR hS hone rgs hitC hitS total res h
    (fun s hs => (heq s hs).le)
  have hcov : ∀ n ≤ S, ∀ a < ∑ x ∈ Finset.range n, numFound R rgs hitC x, ∃ w ∈ res.writes, w.1 = a := by
    intro n
    induction n with
    | zero => intro _ a ha; simp at ha
    | succ n ih =>
      intro hn a ha
      rw [Finset.sum_range_succ] at ha
      by_cases hlt : a < ∑ x ∈ Finset.range n, numFound R rgs hitC x
      · exact ih (by omega) a hlt
      · obtain ⟨w, hw, e, _⟩ := mem_slots2 S R Wc Ws Wn hWc hWs hWn hR hS hone rgs hitC hitS total res h
          (s := n) (by omega) (a := a) (by omega) (by rw [heq n (by omega)]; exact ha)
        exact ⟨w, hw, e⟩
  refine ⟨?_, ?_, ?_⟩
  · rw [List.perm_ext_iff_of_nodup g2 List.nodup_range]
    intro a
    rw [List.mem_range, List.mem_map]
    constructor
    · rintro ⟨w, hw, rfl⟩; exact (g1 w hw).1
    · intro ha
      rw [h1] at ha
      exact hcov S le_rfl a ha
  · intro s hs
    rw [h3 s hs, heq s hs, Finset.sum_range_succ]
  · intro w hw
    refine runWrites_mem _ _ _ _ hw ?_
    intro w' hw' e
    rw [List.inj_on_of_nodup_map g2 hw' hw e]

end

/-- With one test for both kernels the run is the run of C58. -/
theorem C145_same (S R Wc Ws Wn : ℕ) (rgs : List (ℕ → ℕ × ℕ)) (hit : ℕ → ℕ → Bool) (total : ℕ)
    (res : StoreMem) : FindRun2 S R Wc Ws Wn rgs hit hit total res ↔ FindRun S R Wc Ws Wn rgs hit total res :=
  Iff.rfl

/-- **C145 fails without an assumption on the two evaluations.** Two samples with one candidate each; the
counting kernel rejects the second candidate, the storing kernel accepts it: the write goes past the
end of an output with one row. -/
theorem C145_false : ¬ ∀ (S R Wc Ws Wn : ℕ), 0 < Wc → 0 < Ws → 0 < Wn → 0 < R → 0 < S →
    S ≤ 512 + Ws * 64 → ∀ (rgs : List (ℕ → ℕ × ℕ)) (hitC hitS : ℕ → ℕ → Bool) (total : ℕ)
    (res : StoreMem), FindRun2 S R Wc Ws Wn rgs hitC hitS total res → ∀ w ∈ res.writes, w.1 < total := by
  intro hall
  let rgs : List (ℕ → ℕ × ℕ) := [fun i => (i, i + 1)]
  let hitC : ℕ → ℕ → Bool := fun s _ => s == 0
  let hitS : ℕ → ℕ → Bool := fun _ _ => true
  obtain ⟨total, res, hrun⟩ := C145_run_exists 2 1 1 1 1 (by norm_num) (by norm_num) (by norm_num)
    rgs hitC hitS
  obtain ⟨w, hw, e⟩ := C145_overrun 2 1 1 1 1 (by norm_num) (by norm_num) (by norm_num) (by norm_num)
    (by norm_num) (by norm_num) rgs hitC hitS total res hrun (by decide +kernel)
  have := hall 2 1 1 1 1 (by norm_num) (by norm_num) (by norm_num) (by norm_num) (by norm_num)
    (by norm_num) rgs hitC hitS total res hrun w hw
  omega

end PC
