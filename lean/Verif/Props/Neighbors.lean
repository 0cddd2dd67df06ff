import Verif.NeighborsLemmas
import Verif.Props.Grid
import Mathlib.Analysis.SpecialFunctions.Pow.Real

/-!
# Properties C16–C20: grid-based neighbour search
-/

set_option linter.unusedVariables false
set_option linter.unusedSectionVars false

namespace PC

/-- `normLt` is the comparison of the Euclidean norm with the radius. -/
theorem normLt_iff_sqrt {D : ℕ} (v : Fin D → ℝ) (r : ℝ) :
    normLt v r ↔ Real.sqrt (∑ d, v d * v d) < r := by
  have hs : 0 ≤ ∑ d, v d * v d := Finset.sum_nonneg (fun d _ => mul_self_nonneg _)
  unfold normLt
  constructor
  · rintro ⟨hr, h⟩
    rw [← Real.sqrt_mul_self hr.le]
    exact Real.sqrt_lt_sqrt hs h
  · intro h
    have hr : 0 < r := lt_of_le_of_lt (Real.sqrt_nonneg _) h
    refine ⟨hr, ?_⟩
    have := (Real.sqrt_lt' hr).mp h
    nlinarith

theorem normLe_iff_sqrt {D : ℕ} (v : Fin D → ℝ) (r : ℝ) :
    normLe v r ↔ Real.sqrt (∑ d, v d * v d) ≤ r := by
  unfold normLe
  constructor
  · rintro ⟨hr, h⟩
    rw [← Real.sqrt_mul_self hr]
    exact Real.sqrt_le_sqrt h
  · intro h
    have hr : 0 ≤ r := le_trans (Real.sqrt_nonneg _) h
    refine ⟨hr, ?_⟩
    have := (Real.sqrt_le_left hr).mp h
    nlinarith

section
variable {K : Type*} [Field K] [LinearOrder K] [IsStrictOrderedRing K] [FloorRing K] {k : ℕ}

/-- Specification: point `p` of the searched cloud `c` is a neighbour of centre
`i`: same batch element and distance below the radius. -/
def IsNeighbor {D : ℕ} (c ctr : Cloud (Fin D → K)) (radius : K) (p : Fin c.n) (i : Fin ctr.n) :
    Prop :=
  c.batch p = ctr.batch i ∧ normLt (fun d => c.pts p d - ctr.pts i d) radius

/-! ## C16 -/

/-- **C16.** On both devices, for every grid, centres and radii (no assumption
on cell sizes or `eps`): if the search returns, each reported pair `(q, i)` is
a neighbour pair of the sorted points and no pair is reported twice. -/
theorem C16_search_sound (dev : Device) (g : Grid (k + 2) K) (ctr : Cloud (Fin (k + 2) → K))
    (radii : Fin (k + 2) → K) (r : Pairs g.c.n ctr.n) (h : findNeighbors dev g ctr radii = .ok r) :
    (∀ q i, (q, i) ∈ r.pairs → IsNeighbor g.sortedCloud ctr (radii 0) q i) ∧ r.pairs.Nodup := by
  obtain ⟨ds, hds, hn, nb, hnb, rfl⟩ := findNeighbors_ok h
  have hform : ∀ i, ∃ s e, nb i = (List.finRange g.c.n).filter (fun q => s ≤ q.val ∧ q.val < e ∧
        normLt (fun d => g.sortedPts q d - ctr.pts i d) (radii 0) ∧
        g.sortedBatch q = ctr.batch i) := by
    intro i
    have h := hnb i
    unfold neighborsOf at h
    split at h
    · split at h
      · simp at h
      · rename_i s e _
        simp only [Except.ok.injEq] at h
        exact ⟨s, e, h.symm⟩
    · simp at h
  constructor
  · intro q i hqi
    rw [mem_pairs] at hqi
    obtain ⟨s, e, he⟩ := hform i
    rw [he] at hqi
    simp only [List.mem_filter, decide_eq_true_eq] at hqi
    exact ⟨hqi.2.2.2.2, hqi.2.2.2.1⟩
  · apply assemble_nodup
    · simp only [List.map_map]
      have : (Prod.fst ∘ fun i => (i, nb i)) = (id : Fin ctr.n → Fin ctr.n) := rfl
      rw [this, List.map_id]
      exact List.nodup_finRange _
    · intro x hx
      simp only [List.mem_map, List.mem_finRange, true_and] at hx
      obtain ⟨i, rfl⟩ := hx
      obtain ⟨s, e, he⟩ := hform i
      simp only [he]
      exact (List.nodup_finRange _).filter _

/-! ## C17 -/

/-- The search finds every neighbour whose second coordinate differs by less
than `radii[1]`, as soon as the first two cell sizes are those of the radii. -/
theorem complete_of_close (dev : Device) (g : Grid (k + 2) K) (ctr : Cloud (Fin (k + 2) → K))
    (radii : Fin (k + 2) → K) (hv : g.c.Valid) (hcs : ∀ d, 0 < g.cs d) (heps : 0 < g.eps)
    (h0 : g.cs 0 = radii 0) (h1 : g.cs 1 = radii 1)
    (r : Pairs g.c.n ctr.n) (h : findNeighbors dev g ctr radii = .ok r)
    (q : Fin g.c.n) (i : Fin ctr.n) (hq : IsNeighbor g.sortedCloud ctr (radii 0) q i)
    (hq1 : |g.sortedPts q 1 - ctr.pts i 1| < radii 1) :
    (q, i) ∈ r.pairs := by
  obtain ⟨ds, hds, hn, nb, hnb, rfl⟩ := findNeighbors_ok h
  rw [mem_pairs]
  obtain ⟨ds', hds', hspec⟩ := C15_access_structure_exact dev g hv hcs heps
  rw [hds] at hds'
  simp only [Except.ok.injEq] at hds'
  subst hds'
  have hb : g.sortedBatch q = ctr.batch i := hq.1
  have hd : normLt (fun d => g.sortedPts q d - ctr.pts i d) (radii 0) := hq.2
  have h := hnb i
  unfold neighborsOf at h
  have hbB : ctr.batch i < g.c.B := by rw [← hb]; exact hv _
  rw [if_pos hbB] at h
  split at h
  · simp at h
  · rename_i s e hse
    simp only [Except.ok.injEq] at h
    rw [← h]
    simp only [List.mem_filter, List.mem_finRange, true_and, decide_eq_true_eq]
    obtain ⟨a0, _, m0, _⟩ := aabbMin_own g.eps g.c (g.perm q) 0
    obtain ⟨a1, _, m1, _⟩ := aabbMin_own g.eps g.c (g.perm q) 1
    have hbq : g.c.batch (g.perm q) = ctr.batch i := hb
    have f0 := cell_eq_floor g hv hcs heps (g.perm q) 0 _ m0
    have f1 := cell_eq_floor g hv hcs heps (g.perm q) 1 _ m1
    have r0 : 0 < radii 0 := h0 ▸ hcs 0
    have r1 : 0 < radii 1 := h1 ▸ hcs 1
    rw [h0] at f0
    rw [h1] at f1
    have hcov := adjRange_covers hse (g.cell (g.perm q) 0) (g.cell (g.perm q) 1) f0.2 f1.2
      (by rw [← hbq, m0]
          exact clampCell_close _ _ _ _ _ r0 (abs_lt_of_normLt hd 0) _ f0.1 f0.2)
      (by rw [← hbq, m1]
          exact clampCell_close _ _ _ _ _ r1 hq1 _ f1.1 f1.2)
    have hmem := ((hspec (ctr.batch i) _ _ f0.2 f1.2).1 q).mpr
      ⟨hb, (by
        intro lo hlo
        rw [← hbq] at hlo
        exact (cell_eq_floor g hv hcs heps (g.perm q) 0 _ hlo).1.symm), (by
        intro lo hlo
        rw [← hbq] at hlo
        exact (cell_eq_floor g hv hcs heps (g.perm q) 1 _ hlo).1.symm)⟩
    exact ⟨by omega, by omega, hd, hb⟩

/-- The search is complete as soon as the first two cell sizes are those of
the radii and the search radius `radii[0]` does not exceed `radii[1]`; the
cell sizes of the other dimensions are arbitrary. -/
theorem complete_of_two_dims (dev : Device) (g : Grid (k + 2) K) (ctr : Cloud (Fin (k + 2) → K))
    (radii : Fin (k + 2) → K) (hv : g.c.Valid) (hcs : ∀ d, 0 < g.cs d) (heps : 0 < g.eps)
    (h0 : g.cs 0 = radii 0) (h1 : g.cs 1 = radii 1) (h01 : radii 0 ≤ radii 1)
    (r : Pairs g.c.n ctr.n) (h : findNeighbors dev g ctr radii = .ok r)
    (q : Fin g.c.n) (i : Fin ctr.n) (hq : IsNeighbor g.sortedCloud ctr (radii 0) q i) :
    (q, i) ∈ r.pairs :=
  complete_of_close dev g ctr radii hv hcs heps h0 h1 r h q i hq
    (lt_of_lt_of_le (abs_lt_of_normLt hq.2 1) h01)

/-- **C17.** If the grid's cell sizes are the search radii (none smaller than
the radius `radii[0]` that is compared with distances) and the search returns,
every neighbour is reported, wherever the centre lies. -/
theorem C17_search_complete (dev : Device) (g : Grid (k + 2) K) (ctr : Cloud (Fin (k + 2) → K))
    (radii : Fin (k + 2) → K) (hv : g.c.Valid) (hr : 0 < radii 0) (hr0 : ∀ d, radii 0 ≤ radii d)
    (hcs : g.cs = radii) (heps : 0 < g.eps)
    (r : Pairs g.c.n ctr.n) (h : findNeighbors dev g ctr radii = .ok r)
    (q : Fin g.c.n) (i : Fin ctr.n) (hq : IsNeighbor g.sortedCloud ctr (radii 0) q i) :
    (q, i) ∈ r.pairs :=
  complete_of_two_dims dev g ctr radii hv
    (fun d => hcs ▸ lt_of_lt_of_le hr (hr0 d)) heps (by rw [hcs]) (by rw [hcs]) (hr0 1) r h q i hq

/-- On the GPU the search returns for every non-empty set of centres whose batch
ids are below the grid's batch size. -/
theorem findNeighbors_gpu_returns (g : Grid (k + 2) K) (ctr : Cloud (Fin (k + 2) → K))
    (radii : Fin (k + 2) → K) (hv : g.c.Valid) (hpos : ∀ d, 0 < g.cs d) (heps : 0 < g.eps)
    (hn : 0 < ctr.n) (hB : ∀ i, ctr.batch i < g.c.B) :
    ∃ r, findNeighbors .gpu g ctr radii = .ok r := by
  obtain ⟨ds, hds, _⟩ := C15_access_structure_exact .gpu g hv hpos heps
  have hadj : ∀ p b, ∃ s e, adjRange .gpu g ds p b radii = .ok (s, e) := by
    intro p b
    unfold adjRange
    dsimp only
    have : ∀ (n0 n1 b i j : ℕ), gatherDs .gpu ds n0 n1 b i j =
        Except.ok (if i < n0 ∧ j < n1 then ds b i j else (0, 0)) := by
      intro n0 n1 b i j
      unfold gatherDs
      split <;> rfl
    simp only [this]
    rw [show ∀ (f : ℤ × ℤ → ℕ × ℕ), collect (adjOffsets.map (fun o => Except.ok (f o))) =
      Except.ok (ε := Err) (adjOffsets.map f) from fun f => by
        rw [← collect_map_ok, List.map_map]; rfl]
    exact ⟨_, _, rfl⟩
  have hnb : ∀ i : Fin ctr.n, ∃ l, neighborsOf .gpu g ds (ctr.pts i) (ctr.batch i) radii = .ok l := by
    intro i
    obtain ⟨s, e, h⟩ := hadj (ctr.pts i) (ctr.batch i)
    unfold neighborsOf
    rw [if_pos (hB i), h]
    exact ⟨_, rfl⟩
  choose nb hnb using hnb
  unfold findNeighbors
  rw [hds]
  dsimp only
  rw [if_neg (by omega)]
  simp only [hnb]
  rw [show (List.finRange ctr.n).map (fun i => Except.ok (ε := Err) (nb i)) =
    ((List.finRange ctr.n).map nb).map Except.ok by rw [List.map_map]; rfl, collect_map_ok]
  exact ⟨_, rfl⟩

/-- **C17, the search returns on the GPU** for every non-empty set of centres
whose batch ids are below the grid's batch size; so there the reported pairs
are exactly the neighbours. -/
theorem C17_gpu_exact (g : Grid (k + 2) K) (ctr : Cloud (Fin (k + 2) → K))
    (radii : Fin (k + 2) → K) (hv : g.c.Valid) (hr : 0 < radii 0) (hr0 : ∀ d, radii 0 ≤ radii d)
    (hcs : g.cs = radii) (heps : 0 < g.eps) (hn : 0 < ctr.n) (hB : ∀ i, ctr.batch i < g.c.B) :
    ∃ r, findNeighbors .gpu g ctr radii = .ok r ∧
      ∀ q i, (q, i) ∈ r.pairs ↔ IsNeighbor g.sortedCloud ctr (radii 0) q i := by
  have hpos : ∀ d, 0 < g.cs d := fun d => hcs ▸ lt_of_lt_of_le hr (hr0 d)
  have hfind := findNeighbors_gpu_returns g ctr radii hv hpos heps hn hB
  obtain ⟨r, hr'⟩ := hfind
  refine ⟨r, hr', fun q i => ⟨fun h => (C16_search_sound .gpu g ctr radii r hr').1 q i h, ?_⟩⟩
  exact C17_search_complete .gpu g ctr radii hv hr hr0 hcs heps r hr' q i

/-- **C17, obstacle on the CPU.** The clipping bound of the code is
`num_cells`, one more than the last valid index: on the CPU the search raises
an error as soon as one centre lies in (or beyond) the last row or column of
cells, `(p_d - lo_d) / radii_d ≥ num_cells_d - 1` for `d = 0` or `d = 1`. -/
theorem C17_cpu_raises (g : Grid (k + 2) K) (ctr : Cloud (Fin (k + 2) → K))
    (radii : Fin (k + 2) → K) (i : Fin ctr.n) (lo : Fin 2 → K)
    (h0 : aabbMin g.eps g.c (ctr.batch i) 0 = some (lo 0))
    (h1 : aabbMin g.eps g.c (ctr.batch i) 1 = some (lo 1))
    (hlast : (g.numCells 0 : K) - 1 ≤ (ctr.pts i 0 - lo 0) / radii 0 ∨
      (g.numCells 1 : K) - 1 ≤ (ctr.pts i 1 - lo 1) / radii 1) :
    ∀ r, findNeighbors .cpu g ctr radii ≠ .ok r := by
  intro r h
  obtain ⟨ds, hds, hn, nb, hnb, rfl⟩ := findNeighbors_ok h
  have h := hnb i
  unfold neighborsOf at h
  split at h
  · rename_i hbB
    have hadj : ∃ e, adjRange .cpu g ds (ctr.pts i) (ctr.batch i) radii = .error e := by
      unfold adjRange
      dsimp only
      rw [h0, h1]
      have hfl : ∀ (x : K) (m : ℕ), 0 < m → (m : K) - 1 ≤ x → m - 1 ≤ (⌊x⌋).toNat := by
        intro x m hm hx
        have : ((m - 1 : ℕ) : ℤ) ≤ ⌊x⌋ := by
          rw [Int.le_floor]
          push_cast [Nat.cast_sub (show 1 ≤ m from hm)]
          exact hx
        omega
      have p0 := numCells_pos g 0
      have p1 := numCells_pos g 1
      have herr : ∃ o ∈ adjOffsets, gatherDs .cpu ds (g.numCells 0) (g.numCells 1) (ctr.batch i)
          (clip ((Grid.clampCell (some (lo 0)) (ctr.pts i 0) (radii 0) (g.numCells 0) : ℕ) + o.1)
            (g.numCells 0))
          (clip ((Grid.clampCell (some (lo 1)) (ctr.pts i 1) (radii 1) (g.numCells 1) : ℕ) + o.2)
            (g.numCells 1)) = .error .invalidArgument := by
        rcases hlast with hl | hl
        · refine ⟨(1, 0), by simp [adjOffsets], ?_⟩
          unfold gatherDs
          have := hfl _ _ p0 hl
          rw [if_neg]
          unfold Grid.clampCell clip
          dsimp only
          omega
        · refine ⟨(0, 1), by simp [adjOffsets], ?_⟩
          unfold gatherDs
          have := hfl _ _ p1 hl
          rw [if_neg]
          unfold Grid.clampCell clip
          dsimp only
          omega
      obtain ⟨o, ho, he⟩ := herr
      obtain ⟨e', he'⟩ := collect_error (l := adjOffsets.map (fun o =>
        gatherDs .cpu ds (g.numCells 0) (g.numCells 1) (ctr.batch i)
          (clip ((Grid.clampCell (some (lo 0)) (ctr.pts i 0) (radii 0) (g.numCells 0) : ℕ) + o.1)
            (g.numCells 0))
          (clip ((Grid.clampCell (some (lo 1)) (ctr.pts i 1) (radii 1) (g.numCells 1) : ℕ) + o.2)
            (g.numCells 1)))) (List.mem_map.mpr ⟨o, ho, he⟩)
      rw [he']
      exact ⟨e', rfl⟩
    obtain ⟨e, he⟩ := hadj
    rw [he] at h
    simp at h
  · simp at h

end

/-- Non-vacuity of C16/C17: two batch elements in the plane, radius 1; a centre
outside of the box and one inside; the search on the GPU finds the expected
pairs (sorted indices). -/
abbrev exGrid : Grid 2 ℚ where
  c := ⟨5, ![![0, 0], ![2, 0], ![1/2, 1/2], ![3, 3], ![0, 0]], ![0, 0, 0, 0, 1], 2⟩
  cs := ![1, 1]
  eps := 1 / 10

abbrev exCenters : Cloud (Fin 2 → ℚ) := ⟨3, ![![-1/4, 0], ![5/2, 0], ![0, 1/2]], ![0, 0, 1], 2⟩

example : exGrid.c.Valid ∧ 0 < exGrid.cs 0 ∧ (∀ d, exGrid.cs 0 ≤ exGrid.cs d) ∧ 0 < exGrid.eps ∧
    (∀ i, exCenters.batch i < exGrid.c.B) ∧
    (findNeighbors .gpu exGrid exCenters exGrid.cs).map
      (fun r => (r.ranges, r.pairs.map (fun p => (p.1.val, p.2.val)))) =
        .ok ([2, 3, 4], [(3, 0), (4, 0), (2, 1), (0, 2)]) := by
  refine ⟨by decide, by decide +kernel, by decide +kernel, by decide +kernel, by decide,
    by decide +kernel⟩

/-- Also on the CPU the search can return (centres away from the last cells). -/
example : ((findNeighbors .cpu exGrid ⟨1, ![![1/4, 0]], ![0], 1⟩ exGrid.cs).map
    (fun r => (r.ranges, r.pairs.map (fun p => (p.1.val, p.2.val))))) =
        .ok ([2], [(3, 0), (4, 0)]) := by
  decide +kernel

/-- **C17, negation on the CPU.** A cloud of five points searched with itself:
the GPU returns, the CPU raises. -/
theorem C17_cpu_self_search_false :
    (findNeighbors .cpu exGrid exGrid.sortedCloud exGrid.cs).map (fun _ => ()) =
      .error .invalidArgument ∧
    (findNeighbors .gpu exGrid exGrid.sortedCloud exGrid.cs).map (fun r => r.pairs.length) =
      .ok 7 := by
  decide +kernel

section
variable {K : Type*} [Field K] [LinearOrder K] [IsStrictOrderedRing K] [FloorRing K] {k : ℕ}

/-- **C17, the CPU search of a cloud with itself never returns** if the margin
does not make the box straddle one more cell boundary in the first dimension
(in particular whenever float32 absorbs the margin, `eps = 0`): the points with
the largest first coordinate lie in the last row of cells. -/
theorem C17_cpu_self_never_returns (g : Grid (k + 2) K) (hv : g.c.Valid) (hn : 0 < g.c.n)
    (hcs : 0 < g.cs 0) (heps : 0 ≤ g.eps)
    (hgap : ∀ b lo hi, aabbMin g.eps g.c b 0 = some lo → aabbMax g.eps g.c b 0 = some hi →
      ⌈(hi - lo) / g.cs 0⌉ ≤ ⌊(hi - g.eps - lo) / g.cs 0⌋ + 1) :
    ∀ r, findNeighbors .cpu g g.sortedCloud g.cs ≠ .ok r := by
  -- a point `p` in the last row of cells
  have hp : ∃ p : Fin g.c.n, ∀ lo, aabbMin g.eps g.c (g.c.batch p) 0 = some lo →
      (g.numCells 0 : K) - 1 ≤ (g.c.pts p 0 - lo) / g.cs 0 := by
    rcases Nat.eq_zero_or_pos ((Finset.range g.c.B).sup (fun b => g.batchNumCells b 0)) with h0 | h0
    · refine ⟨⟨0, hn⟩, ?_⟩
      intro lo hlo
      have : g.numCells 0 = 1 := by unfold Grid.numCells; rw [h0]; rfl
      rw [this]
      obtain ⟨j, _, hmin, hle⟩ := aabbMin_own g.eps g.c ⟨0, hn⟩ 0
      rw [hmin] at hlo
      simp only [Option.some.injEq] at hlo
      subst hlo
      have := hle ⟨0, hn⟩ rfl
      have h2 : 0 ≤ (g.c.pts ⟨0, hn⟩ 0 - (g.c.pts j 0 - g.eps)) / g.cs 0 :=
        div_nonneg (by linarith) hcs.le
      simpa using h2
    · obtain ⟨b, hb, hsup⟩ := Finset.exists_mem_eq_sup (Finset.range g.c.B)
        (by rw [Finset.nonempty_range_iff]
            intro h
            rw [h] at h0
            simp at h0) (fun b => g.batchNumCells b 0)
      rw [hsup] at h0
      have hnum : g.numCells 0 = g.batchNumCells b 0 := by
        unfold Grid.numCells; rw [hsup]; exact max_eq_left h0
      unfold Grid.batchNumCells at h0 hnum
      cases hlo : aabbMin g.eps g.c b 0 with
      | none => rw [hlo] at h0; simp at h0
      | some lo =>
        cases hhi : aabbMax g.eps g.c b 0 with
        | none => rw [hlo, hhi] at h0; simp at h0
        | some hi =>
          rw [hlo, hhi] at h0 hnum
          dsimp only at h0 hnum
          have hmax := hhi
          unfold aabbMax at hmax
          rw [Option.map_eq_some_iff] at hmax
          obtain ⟨v, hv', rfl⟩ := hmax
          rw [segMax_eq_some] at hv'
          obtain ⟨⟨p, hpb, hpv⟩, _⟩ := hv'
          refine ⟨p, ?_⟩
          intro lo' hlo'
          rw [hpb, hlo] at hlo'
          simp only [Option.some.injEq] at hlo'
          subst hlo'
          have hg := hgap b lo _ hlo hhi
          rw [add_sub_cancel_right] at hg
          rw [hpv]
          have hz : ((g.numCells 0 : ℕ) : ℤ) - 1 ≤ ⌊(v - lo) / g.cs 0⌋ := by
            rw [hnum]; omega
          have := le_trans (Int.cast_le.mpr hz) (Int.floor_le ((v - lo) / g.cs 0))
          push_cast at this
          exact this
  obtain ⟨p, hp⟩ := hp
  obtain ⟨j0, _, m0, _⟩ := aabbMin_own g.eps g.c p 0
  obtain ⟨j1, _, m1, _⟩ := aabbMin_own g.eps g.c p 1
  refine C17_cpu_raises g g.sortedCloud g.cs (g.perm.symm p)
    ![g.c.pts j0 0 - g.eps, g.c.pts j1 1 - g.eps] ?_ ?_ (Or.inl ?_)
  · simpa [Grid.sortedCloud, Grid.sortedBatch] using m0
  · simpa [Grid.sortedCloud, Grid.sortedBatch] using m1
  · simpa [Grid.sortedCloud, Grid.sortedPts] using hp _ m0

/-- The gap hypothesis always holds for `eps = 0`. -/
theorem C17_cpu_self_never_returns_eps0 (g : Grid (k + 2) K) (hv : g.c.Valid) (hn : 0 < g.c.n)
    (hcs : 0 < g.cs 0) (heps : g.eps = 0) :
    ∀ r, findNeighbors .cpu g g.sortedCloud g.cs ≠ .ok r := by
  apply C17_cpu_self_never_returns g hv hn hcs heps.ge
  intro b lo hi _ _
  rw [heps, sub_zero]
  exact Int.ceil_le_floor_add_one _

/-! ## C18 -/

/-- Witness for C18: grid of cell size 1, radius 1/2. -/
abbrev smallRadiusGrid : Grid 2 ℚ where
  c := ⟨3, ![![0, 0], ![3, 0], ![10, 0]], ![0, 0, 0], 1⟩
  cs := ![1, 1]
  eps := 1 / 10

/-- **C18, negation.** With a radius smaller than the cell size the search
computes the centre's cell with the radius and the table with the cell size:
the centre `(3,0)`, itself a point of the cloud, gets no neighbour at all. -/
theorem C18_smaller_radius_false :
    smallRadiusGrid.c.Valid ∧ (∀ d, (0 : ℚ) < smallRadiusGrid.cs d) ∧
    IsNeighbor smallRadiusGrid.sortedCloud ⟨1, ![![3, 0]], ![0], 1⟩ (1 / 2) (1 : Fin 3) (0 : Fin 1) ∧
    (findNeighbors .gpu smallRadiusGrid ⟨1, ![![3, 0]], ![0], 1⟩ (fun _ => 1 / 2)).map
      (fun r => (r.ranges, r.pairs.map (fun p => (p.1.val, p.2.val)))) = .ok ([0], []) := by
  refine ⟨by decide, by decide +kernel, ⟨by decide +kernel, by decide +kernel⟩, by decide +kernel⟩

/-- **C18, what holds.** Only the first two cell sizes must agree with the
radii; in all further dimensions any positive cell size, larger or smaller
than the radius, gives a complete search.  Missing: radii smaller than the
cell size in the first two dimensions, where the claim is false. -/
theorem C18_other_dims_partial (dev : Device) (g : Grid (k + 2) K) (ctr : Cloud (Fin (k + 2) → K))
    (radii : Fin (k + 2) → K) (hv : g.c.Valid) (hcs : ∀ d, 0 < g.cs d) (heps : 0 < g.eps)
    (h0 : g.cs 0 = radii 0) (h1 : g.cs 1 = radii 1) (h01 : radii 0 ≤ radii 1)
    (r : Pairs g.c.n ctr.n) (h : findNeighbors dev g ctr radii = .ok r)
    (q : Fin g.c.n) (i : Fin ctr.n) :
    (q, i) ∈ r.pairs ↔ IsNeighbor g.sortedCloud ctr (radii 0) q i :=
  ⟨fun hq => (C16_search_sound dev g ctr radii r h).1 q i hq,
   complete_of_two_dims dev g ctr radii hv hcs heps h0 h1 h01 r h q i⟩

/-- Non-vacuity of C18_other_dims_partial: three dimensions, third cell size 5. -/
example : let g : Grid 3 ℚ := ⟨⟨3, ![![0, 0, 0], ![1/2, 0, 1/2], ![0, 0, 4]], ![0, 0, 0], 1⟩,
      ![1, 1, 5], 1 / 10⟩
    g.c.Valid ∧ (∀ d, 0 < g.cs d) ∧
    (findNeighbors .gpu g ⟨1, ![![0, 0, 0]], ![0], 1⟩ (fun _ => 1)).map
      (fun r => (r.ranges, r.pairs.map (fun p => (p.1.val, p.2.val)))) = .ok ([2], [(0, 0), (1, 0)]) := by
  refine ⟨by decide, by decide +kernel, by decide +kernel⟩

/-! ## C19 -/

/-- Specification of C19: `ranges` delimits per centre the pairs of that
centre. -/
def RangesDelimit {n m : ℕ} (ranges : List ℕ) (pairs : List (Fin n × Fin m)) : Prop :=
  ranges.length = m ∧ ranges.Pairwise (· ≤ ·) ∧ ranges.getLastD 0 = pairs.length ∧
  ∀ i : Fin m, ∀ j : Fin pairs.length,
    ((if i.val = 0 then 0 else ranges.getD (i.val - 1) 0) ≤ j.val ∧
      j.val < ranges.getD i.val 0) ↔ (pairs.get j).2 = i

theorem assemble_delimits {n m : ℕ} (nb : Fin m → List (Fin n)) :
    RangesDelimit (assemble ((List.finRange m).map (fun i => (i, nb i)))).ranges
      (assemble ((List.finRange m).map (fun i => (i, nb i)))).pairs := by
  set nbs := (List.finRange m).map (fun i => (i, nb i)) with hnbs
  set lens := nbs.map (fun x => x.2.length) with hlens
  have hr : (assemble nbs).ranges = cumEnds lens 0 := rfl
  have hll : lens.length = m := by simp [hlens, hnbs]
  have hlen : (assemble nbs).ranges.length = m := by rw [hr, cumEnds_length, hll]
  have hget : ∀ i, i < m → (assemble nbs).ranges.getD i 0 = (lens.take (i + 1)).sum := by
    intro i hi
    rw [List.getD_eq_getElem?_getD, List.getElem?_eq_getElem (by omega)]
    simp only [hr, Option.getD_some]
    rw [cumEnds_getElem]
    omega
  refine ⟨hlen, ?_, ?_, ?_⟩
  · rw [hr]; exact cumEnds_mono _ _
  · rw [hr, cumEnds_getLastD _ _ _ (fun _ => rfl), assemble_length]; simp [hlens]
  · intro i j
    obtain ⟨t, ht, h1, h2, h3⟩ := assemble_block nbs j.val j.isLt
    rw [← hlens] at h1 h2
    have htm : t < m := by simpa [hnbs] using ht
    have hc : ((assemble nbs).pairs.get j).2 = ⟨t, htm⟩ := by
      simp only [List.get_eq_getElem]
      rw [h3]
      simp [hnbs]
    have hstart : (if i.val = 0 then 0 else (assemble nbs).ranges.getD (i.val - 1) 0) =
        (lens.take i.val).sum := by
      split
      · rename_i h; simp [h]
      · rename_i h
        rw [hget _ (by omega)]
        congr 2
        omega
    rw [hstart, hget _ i.isLt, hc, Fin.ext_iff]
    constructor
    · rintro ⟨a, b⟩
      by_contra hne
      rcases Nat.lt_or_gt_of_ne hne with h | h
      · have := take_sum_mono lens (show t + 1 ≤ i.val from h)
        omega
      · have := take_sum_mono lens (show i.val + 1 ≤ t from h)
        omega
    · intro h
      simp only at h
      rw [← h]
      exact ⟨h1, h2⟩

/-- **C19.** The ranges returned by the search delimit, for every centre, exactly
its pairs; they are non-decreasing and end with the number of pairs. -/
theorem C19_ranges_partition (dev : Device) (g : Grid (k + 2) K) (ctr : Cloud (Fin (k + 2) → K))
    (radii : Fin (k + 2) → K) (r : Pairs g.c.n ctr.n) (h : findNeighbors dev g ctr radii = .ok r) :
    RangesDelimit r.ranges r.pairs := by
  obtain ⟨ds, hds, hn, nb, hnb, rfl⟩ := findNeighbors_ok h
  exact assemble_delimits nb

end
end PC
