import Verif.Props.Neighbors
import Verif.Props.CudaSearch

/-!
# C107: the two implementations of the neighbour search

`pylib/pc/custom_ops/__init__.py:19-37` uses the CUDA operation when the package of
custom operations can be imported and `find_neighbors_tf` otherwise.  The pairs are
compared in indices of the input cloud (the neighbour column of
`compute_neighborhoods`).
-/

set_option linter.unusedVariables false

namespace PC

/-- `find_neighbors_tf` with its argument `max_neighbors`
(custom_ops_tf.py:118-212), which is not used in the body. -/
def findNeighborsMax {K : Type*} [Field K] [LinearOrder K] [FloorRing K] {k : ℕ} (dev : Device)
    (g : Grid (k + 2) K) (ctr : Cloud (Fin (k + 2) → K)) (radii : Fin (k + 2) → K) (maxNeighbors : ℕ) :
    Except Err (Pairs g.c.n ctr.n) :=
  findNeighbors dev g ctr radii

section
variable {K : Type*} [Field K] [LinearOrder K] [IsStrictOrderedRing K] [FloorRing K] {k : ℕ}

theorem scaled_lt_iff {D : ℕ} (p q : Fin D → K) {ρ : K} (hρ : 0 < ρ) :
    normLt (fun d => q d - p d) ρ ↔ ∑ d, ((p d - q d) / ρ) ^ 2 < 1 := by
  unfold normLt
  have e : ∑ d, ((p d - q d) / ρ) ^ 2 = (∑ d, (q d - p d) * (q d - p d)) / (ρ * ρ) := by
    rw [div_eq_mul_inv, Finset.sum_mul]
    refine Finset.sum_congr rfl fun d _ => ?_
    rw [div_pow, pow_two, pow_two, div_eq_mul_inv]
    congr 1
    ring
  rw [e, div_lt_one (by positivity)]
  exact ⟨fun h => h.2, fun h => ⟨hρ, h⟩⟩

/-- **C107, the limit of the TensorFlow search.** `find_neighbors_tf` does not use
`max_neighbors`: for every limit it reports exactly the pairs within the radius. -/
theorem C107_tf_limit_unused (g : Grid (k + 2) K) (ctr : Cloud (Fin (k + 2) → K))
    (radii : Fin (k + 2) → K) (hv : g.c.Valid) (hr : 0 < radii 0) (hr0 : ∀ d, radii 0 ≤ radii d)
    (hcs : g.cs = radii) (heps : 0 < g.eps) (hn : 0 < ctr.n) (hB : ∀ i, ctr.batch i < g.c.B) (m : ℕ) :
    ∃ r, findNeighborsMax .gpu g ctr radii m = .ok r ∧
      ∀ q i, (q, i) ∈ r.pairs ↔ IsNeighbor g.sortedCloud ctr (radii 0) q i :=
  C17_gpu_exact g ctr radii hv hr hr0 hcs heps hn hB

/-- **C107, what holds in general.** If the first radius is the smallest one and no
radius exceeds the cell size, everything the TensorFlow search reports (on either
device) is reported by the CUDA search: no assumption on the margin of the box. -/
theorem C107_tf_in_cuda (dev : Device) (g : Grid (k + 2) K) (ctr : Cloud (Fin (k + 2) → K))
    (radii : Fin (k + 2) → K) (hr : 0 < radii 0) (hr0 : ∀ d, radii 0 ≤ radii d)
    (hle : ∀ d, radii d ≤ g.cs d) (r : Pairs g.c.n ctr.n) (h : findNeighbors dev g ctr radii = .ok r)
    (tab : ℤ → ℕ × ℕ) (ht : BuiltTable g tab) (fuel : ℕ) (hf : Nat.clog 2 g.c.n + 1 ≤ fuel)
    (i : Fin ctr.n) (p : Fin g.c.n) (hp : ∃ q, (q, i) ∈ r.pairs ∧ g.perm q = p) :
    ∃ l, cuNeighborsOf fuel g tab (ctr.batch i) (ctr.pts i) (fun d => (radii d)⁻¹) = some l ∧
      ∃ (j : ℕ) (hj : j < g.c.n), j ∈ l ∧ cuPerm g ⟨j, hj⟩ = p := by
  obtain ⟨q, hq, rfl⟩ := hp
  obtain ⟨h1, h2⟩ := (C16_search_sound dev g ctr radii r h).1 q i hq
  have hpos : ∀ d, 0 < radii d := fun d => lt_of_lt_of_le hr (hr0 d)
  obtain ⟨l, hl, hc⟩ := C56_complete g tab ht (ctr.batch i) (ctr.pts i) radii hpos hle fuel hf
  have h3 := (scaled_lt_iff (ctr.pts i) (g.sortedCloud.pts q) hr).mp h2
  refine ⟨l, hl, ((cuPerm g).symm (g.perm q)).val, ((cuPerm g).symm (g.perm q)).isLt, ?_, ?_⟩
  · refine hc _ ?_ ?_
    · rw [Equiv.apply_symm_apply]; exact h1
    · rw [Equiv.apply_symm_apply]
      refine lt_of_le_of_lt (Finset.sum_le_sum fun d _ => ?_) h3
      rw [div_pow, div_pow]
      exact div_le_div_of_nonneg_left (sq_nonneg _) (pow_pos hr 2) (pow_le_pow_left₀ hr.le (hr0 d) 2)
  · simp

/-- **C107 for one radius in all dimensions and a grid with this cell size**: both
implementations report the same points, whenever the TensorFlow search returns
(C17: it always does on the GPU).  Missing: radii that differ between the
dimensions, radii below the cell size, and a positive `max_neighbors`, where the
claim is false. -/
theorem C107_agree_partial (dev : Device) (g : Grid (k + 2) K) (ctr : Cloud (Fin (k + 2) → K)) (ρ : K)
    (hρ : 0 < ρ) (hv : g.c.Valid) (hcs : g.cs = fun _ => ρ) (heps : 0 < g.eps)
    (r : Pairs g.c.n ctr.n) (h : findNeighbors dev g ctr (fun _ => ρ) = .ok r)
    (tab : ℤ → ℕ × ℕ) (ht : BuiltTable g tab) (fuel : ℕ) (hf : Nat.clog 2 g.c.n + 1 ≤ fuel)
    (i : Fin ctr.n) :
    ∃ l, cuNeighborsOf fuel g tab (ctr.batch i) (ctr.pts i) (fun _ => ρ⁻¹) = some l ∧
      ∀ p : Fin g.c.n, (∃ q, (q, i) ∈ r.pairs ∧ g.perm q = p) ↔
        ∃ (j : ℕ) (hj : j < g.c.n), j ∈ l ∧ cuPerm g ⟨j, hj⟩ = p := by
  obtain ⟨l, hl, hs⟩ := C56_sound g tab ht (ctr.batch i) (ctr.pts i) (fun _ => ρ) fuel hf
  refine ⟨l, hl, fun p => ⟨fun hp => ?_, ?_⟩⟩
  · obtain ⟨l', hl', hj⟩ := C107_tf_in_cuda dev g ctr (fun _ => ρ) hρ (fun _ => le_rfl)
      (fun d => by rw [hcs]) r h tab ht fuel hf i p hp
    rw [hl'] at hl
    cases hl
    exact hj
  · rintro ⟨j, hj, hjl, rfl⟩
    obtain ⟨_, h1, h2⟩ := hs j hjl
    refine ⟨g.perm.symm (cuPerm g ⟨j, hj⟩), ?_, by simp⟩
    refine C17_search_complete dev g ctr (fun _ => ρ) hv hρ (fun _ => le_rfl) hcs heps r h _ i ⟨?_, ?_⟩
    · show g.c.batch (g.perm (g.perm.symm _)) = _
      rw [Equiv.apply_symm_apply]; exact h1
    · refine (scaled_lt_iff (ctr.pts i) _ hρ).mpr ?_
      show ∑ d, ((ctr.pts i d - g.c.pts (g.perm (g.perm.symm (cuPerm g ⟨j, hj⟩))) d) / ρ) ^ 2 < 1
      rw [Equiv.apply_symm_apply]; exact h2

end

/-! ### counterexamples -/

/-- Two points above each other. -/
abbrev exAniso : Grid 2 ℚ := ⟨⟨2, ![![0, 0], ![0, 3 / 2]], ![0, 0], 1⟩, ![1, 2], 1 / 10⟩

abbrev exAnisoTab : ℤ → ℕ × ℕ :=
  fun s => buildDsResult (buildDsThreads (cuNc exAniso) (cuSortedKeys exAniso) exAniso.c.n 1).flatten s

abbrev exAnisoCtr : Cloud (Fin 2 → ℚ) := ⟨1, ![![0, 0]], ![0], 1⟩

theorem exAniso_tf : (findNeighbors .gpu exAniso exAnisoCtr ![1, 2]).map
    (fun r => r.pairs.map (fun p => exAniso.perm p.1)) = .ok [0] := by decide +kernel

theorem exAniso_cuda : cuNeighborsOf 5 exAniso exAnisoTab 0 ![0, 0] (fun d => (![1, 2] d : ℚ)⁻¹) =
    some [0, 1] ∧ cuPerm exAniso 1 = 1 := by decide +kernel

/-- **C107 is false for radii that differ between the dimensions**: with radii
`(1, 2)` and a grid with these cell sizes, the point `(0, 3/2)` is a neighbour of
the origin for the CUDA operation (scaled distance 3/4), but not for
`find_neighbors_tf`, which compares the distance with the first radius. -/
theorem C107_radii_false : ¬ ∀ (g : Grid 2 ℚ) (ctr : Cloud (Fin 2 → ℚ)) (tab : ℤ → ℕ × ℕ), g.c.Valid →
    BuiltTable g tab → (∀ d, 0 < g.cs d) → 0 < g.eps → (∀ d, g.cs 0 ≤ g.cs d) →
    ∀ (r : Pairs g.c.n ctr.n), findNeighbors .gpu g ctr g.cs = .ok r → ∀ (i : Fin ctr.n) (l : List ℕ),
      cuNeighborsOf 5 g tab (ctr.batch i) (ctr.pts i) (fun d => (g.cs d)⁻¹) = some l →
      ∀ (j : ℕ) (hj : j < g.c.n), j ∈ l → ∃ q, (q, i) ∈ r.pairs ∧ g.perm q = cuPerm g ⟨j, hj⟩ := by
  intro h
  have h1 := exAniso_tf
  rcases hr : findNeighbors .gpu exAniso exAnisoCtr ![1, 2] with e | r
  · rw [hr] at h1; cases h1
  · rw [hr] at h1
    have h2 : r.pairs.map (fun p => exAniso.perm p.1) = [0] := by injection h1
    obtain ⟨q, hq, hq1⟩ := h exAniso exAnisoCtr exAnisoTab (by intro i; decide +revert +kernel)
      ⟨1, _, one_pos, Interleave.exists_seq _, rfl⟩ (by decide +kernel) (by decide +kernel)
      (by decide +kernel) r hr 0 [0, 1] exAniso_cuda.1 1 (by decide) (by simp)
    have h3 : exAniso.perm q ∈ r.pairs.map (fun p => exAniso.perm p.1) := List.mem_map.mpr ⟨_, hq, rfl⟩
    rw [h2, hq1] at h3
    have h4 : cuPerm exAniso 1 = 0 := List.mem_singleton.mp h3
    rw [exAniso_cuda.2] at h4
    exact absurd h4 (by decide)

abbrev exSmallCtr : Cloud (Fin 2 → ℚ) := ⟨1, ![![3, 0]], ![0], 1⟩

abbrev exSmallTab : ℤ → ℕ × ℕ :=
  fun s => buildDsResult (buildDsThreads (cuNc smallRadiusGrid) (cuSortedKeys smallRadiusGrid)
    smallRadiusGrid.c.n 1).flatten s

/-- **C107 is false for radii below the cell size** in the first dimensions (C18). -/
theorem C107_small_radius_false : ¬ ∀ (g : Grid 2 ℚ) (ctr : Cloud (Fin 2 → ℚ)) (ρ : ℚ) (tab : ℤ → ℕ × ℕ),
    g.c.Valid → BuiltTable g tab → 0 < ρ → (∀ d, ρ ≤ g.cs d) → 0 < g.eps →
    ∀ (r : Pairs g.c.n ctr.n), findNeighbors .gpu g ctr (fun _ => ρ) = .ok r → ∀ (i : Fin ctr.n) (l : List ℕ),
      cuNeighborsOf 5 g tab (ctr.batch i) (ctr.pts i) (fun _ => ρ⁻¹) = some l →
      ∀ (j : ℕ) (hj : j < g.c.n), j ∈ l → ∃ q, (q, i) ∈ r.pairs ∧ g.perm q = cuPerm g ⟨j, hj⟩ := by
  intro h
  have h1 := C18_smaller_radius_false.2.2.2
  rcases hr : findNeighbors .gpu smallRadiusGrid exSmallCtr (fun _ => 1 / 2) with e | r
  · rw [hr] at h1; cases h1
  · rw [hr] at h1
    have h2 : r.pairs.map (fun p => (p.1.val, p.2.val)) = [] := by injection h1 with h1; exact (Prod.mk.inj h1).2
    obtain ⟨q, hq, _⟩ := h smallRadiusGrid exSmallCtr (1 / 2) exSmallTab (by intro i; decide +revert +kernel)
      ⟨1, _, one_pos, Interleave.exists_seq _, rfl⟩ (by norm_num) (by decide +kernel)
      (by decide +kernel) r hr 0 [1] (by decide +kernel) 1 (by decide) (by simp)
    rw [List.map_eq_nil_iff] at h2
    rw [h2] at hq
    exact absurd hq (by simp)

abbrev exLimit : Grid 2 ℚ := ⟨⟨2, ![![0, 0], ![0, 1 / 2]], ![0, 0], 1⟩, ![1, 1], 1 / 10⟩

/-- **The TensorFlow search ignores `max_neighbors`**: a limit of one neighbour per
centre is not respected. -/
theorem C107_limit_false : ¬ ∀ (g : Grid 2 ℚ) (ctr : Cloud (Fin 2 → ℚ)) (radii : Fin 2 → ℚ) (m : ℕ),
    g.c.Valid → 0 < m → (∀ d, g.cs d = radii d) → 0 < g.eps → ∀ (r : Pairs g.c.n ctr.n),
      findNeighborsMax .gpu g ctr radii m = .ok r → ∀ i,
        (r.pairs.filter (fun p => p.2 = i)).length ≤ m := by
  intro h
  have h1 : (findNeighborsMax .gpu exLimit exAnisoCtr ![1, 1] 1).map
    (fun r => (r.pairs.filter (fun p => p.2 = 0)).length) = .ok 2 := by decide +kernel
  rcases hr : findNeighborsMax .gpu exLimit exAnisoCtr ![1, 1] 1 with e | r
  · rw [hr] at h1; cases h1
  · rw [hr] at h1
    have h2 : (r.pairs.filter (fun p => p.2 = 0)).length = 2 := by injection h1
    have h3 := h exLimit exAnisoCtr ![1, 1] 1 (by intro i; decide +revert +kernel) one_pos
      (by decide +kernel) (by decide +kernel) r hr 0
    omega

/-- A case of C107_agree_partial: two neighbouring points, both found by both
searches. -/
example : exLimit.c.Valid ∧ (exLimit.cs = fun _ => 1) ∧ 0 < exLimit.eps ∧
    (findNeighbors .gpu exLimit exAnisoCtr (fun _ => 1)).map
      (fun r => r.pairs.map (fun p => exLimit.perm p.1)) = .ok [0, 1] ∧
    (cuNeighborsOf 5 exLimit (fun s => buildDsResult (buildDsThreads (cuNc exLimit) (cuSortedKeys exLimit)
      exLimit.c.n 1).flatten s) 0 ![0, 0] (fun _ => 1⁻¹)) = some [0, 1] := by
  refine ⟨by intro i; decide +revert +kernel, by decide +kernel, by decide +kernel, by decide +kernel,
    by decide +kernel⟩

end PC
