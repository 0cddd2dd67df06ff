import Verif.Props.CudaSearch
import Verif.Props.CudaGrid
import Verif.Props.Resample

/-!
# C150: how much work the CUDA search does for one centre
-/

set_option linter.unusedVariables false

namespace PC

section
variable {K : Type*} [Field K] [LinearOrder K] [IsStrictOrderedRing K] [FloorRing K] {k : ℕ}

/-- A position between the extreme coordinates of a batch element lies in the cell of its
coordinates, no clamping takes place. -/
theorem cuCellOf_floor {D : ℕ} (g : Grid D K) (hv : g.c.Valid) (hcs : ∀ d, 0 < g.cs d) (heps : 0 < g.eps)
    (b : ℕ) (p : Fin D → K) (d : Fin D) (u v : Fin g.c.n) (hu : g.c.batch u = b) (hv' : g.c.batch v = b)
    (hlo : g.c.pts u d ≤ p d) (hhi : p d ≤ g.c.pts v d) (lo : K) (h : aabbMin g.eps g.c b d = some lo) :
    (cuCellOf g b p d : ℤ) = ⌊(p d - lo) / g.cs d⌋ := by
  have h1 := pos_lt_numCells g hv hcs heps u d lo (by rw [hu]; exact h)
  have h2 := pos_lt_numCells g hv hcs heps v d lo (by rw [hv']; exact h)
  have hc := hcs d
  have a1 : 0 ≤ (p d - lo) / g.cs d := h1.1.trans (by gcongr)
  have a2 : (p d - lo) / g.cs d < (g.numCells d : K) := lt_of_le_of_lt (by gcongr) h2.2
  have f1 : 0 ≤ ⌊(p d - lo) / g.cs d⌋ := Int.floor_nonneg.mpr a1
  have f2 : ⌊(p d - lo) / g.cs d⌋ < (g.numCells d : ℤ) := by
    rw [Int.floor_lt]; push_cast; exact a2
  have e : p d * (g.cs d)⁻¹ - lo / g.cs d = (p d - lo) / g.cs d := by
    rw [← div_eq_mul_inv, sub_div]
  unfold cuCellOf cuCell cuSMin cuNc
  rw [h]
  dsimp only
  rw [e]
  omega

theorem floor_bounds {x lo cs : K} (hc : 0 < cs) {m : ℤ} (h : m = ⌊(x - lo) / cs⌋) :
    lo + m * cs ≤ x ∧ x < lo + (m + 1) * cs := by
  have h1 := Int.floor_le ((x - lo) / cs)
  have h2 := Int.lt_floor_add_one ((x - lo) / cs)
  rw [← h] at h1 h2
  rw [le_div_iff₀ hc] at h1
  rw [div_lt_iff₀ hc] at h2
  constructor <;> linarith

/-- The points examined for one centre: their numbers in the sorted order, the blocks of offsets one
after another. -/
theorem C150_tested (g : Grid (k + 2) K) (hk : k ≤ 1) (tab : ℤ → ℕ × ℕ) (ht : BuiltTable g tab) (b : ℕ)
    (p : Fin (k + 2) → K) (fuel : ℕ) (hf : Nat.clog 2 g.c.n + 1 ≤ fuel) :
    ∃ l, cuCandidates fuel g tab b p (offsetBlocks (k + 2) 1).flatten = some l ∧ l.Nodup ∧
      (∀ i ∈ l, i < g.c.n) ∧
      ∀ i : Fin g.c.n, i.val ∈ l ↔ g.c.batch (cuPerm g i) = b ∧
        ∀ d, |cuCellOf g b (g.c.pts (cuPerm g i)) d - cuCellOf g b p d| ≤ 1 := by
  let rg : (Fin (k + 2) → ℤ) → ℕ × ℕ := fun off =>
    (cuRange fuel (cuNc g) (cuSortedKeys g) tab 1 (cuGridKey g b p) off).getD (0, 0)
  have h1 : ∀ off ∈ cuOffsets (k + 2) 1,
        (rg off).2 ≤ g.c.n ∧ ∀ i : Fin g.c.n, (((rg off).1 ≤ i.val ∧ i.val < (rg off).2) ↔
        (∀ d, 0 ≤ cuCellOf g b p d + off d ∧ cuCellOf g b p d + off d < cuNc g d) ∧
        g.c.batch (cuPerm g i) = b ∧
        cuCellOf g (g.c.batch (cuPerm g i)) (g.c.pts (cuPerm g i)) 0 = cuCellOf g b p 0 + off 0 ∧
        cuCellOf g (g.c.batch (cuPerm g i)) (g.c.pts (cuPerm g i)) 1 = cuCellOf g b p 1 + off 1 ∧
        (k ≠ 0 → |cuSortedKeys g i.val -
          cuKey (fun d => cuCellOf g b p d + off d) (cuNc g) b| ≤ 1)) := by
    intro off ho
    obtain ⟨r, h1, h2, h3⟩ := cuRange_spec g tab ht b p off ho fuel hf
    have e : rg off = r := by simp only [rg, h1, Option.getD_some]
    rw [e]
    exact ⟨h2, h3⟩
  have h2 : cuCandidates fuel g tab b p (offsetBlocks (k + 2) 1).flatten = some
      ((cuOffsets (k + 2) 1).flatMap (fun off => List.range' (rg off).1 ((rg off).2 - (rg off).1))) := by
    rw [offsetBlocks_flatten, cuCandidates_eq fuel g tab b p rg]
    intro off ho
    obtain ⟨r, h1, h2, h3⟩ := cuRange_spec g tab ht b p off ho fuel hf
    simp only [rg, h1, Option.getD_some]
  have hlast : ∀ d : Fin (k + 2), d = 0 ∨ d = 1 ∨ (k ≠ 0 ∧ d = Fin.last _) := by
    rintro ⟨d, hd⟩
    rcases (by omega : d = 0 ∨ d = 1 ∨ d = 2) with rfl | rfl | rfl
    · exact Or.inl rfl
    · exact Or.inr (Or.inl rfl)
    · exact Or.inr (Or.inr ⟨by omega, Fin.ext (by rw [Fin.val_last]; show 2 = k + 1; omega)⟩)
  refine ⟨_, h2, ?_, ?_, ?_⟩
  · rw [List.nodup_flatMap]
    refine ⟨fun off _ => List.nodup_range', ?_⟩
    have hnd := nodup_cuOffsets k
    rw [List.Nodup] at hnd
    refine hnd.imp_of_mem ?_
    intro off off' ho ho' hne
    show List.Disjoint _ _
    rw [List.disjoint_left]
    intro i hi hi'
    rw [mem_range'_iff] at hi hi'
    have hn : i < g.c.n := lt_of_lt_of_le hi.2 (h1 off ho).1
    obtain ⟨u1, u2, u3, u4, u5⟩ := ((h1 off ho).2 ⟨i, hn⟩).mp hi
    obtain ⟨v1, v2, v3, v4, v5⟩ := ((h1 off' ho').2 ⟨i, hn⟩).mp hi'
    obtain ⟨o1, o2⟩ := (mem_cuOffsets k off).mp ho
    obtain ⟨o1', o2'⟩ := (mem_cuOffsets k off').mp ho'
    apply hne
    funext d
    rcases hlast d with rfl | rfl | ⟨hk0, rfl⟩
    · omega
    · omega
    · rw [o2 hk0, o2' hk0]
  · intro i hi
    obtain ⟨off, ho, hm⟩ := List.mem_flatMap.mp hi
    rw [mem_range'_iff] at hm
    exact lt_of_lt_of_le hm.2 (h1 off ho).1
  · intro i
    rw [List.mem_flatMap]
    constructor
    · rintro ⟨off, ho, hm⟩
      rw [mem_range'_iff, (h1 off ho).2 i] at hm
      obtain ⟨u1, u2, u3, u4, u5⟩ := hm
      obtain ⟨o1, o2⟩ := (mem_cuOffsets k off).mp ho
      refine ⟨u2, ?_⟩
      rw [u2] at u3 u4
      intro d
      rcases hlast d with rfl | rfl | ⟨hk0, rfl⟩
      · rw [u3, abs_le]; have := o1 0; omega
      · rw [u4, abs_le]; have := o1 1; omega
      · have u6 := u5 hk0
        rw [cuSortedKeys_lt g i.isLt, cuGridKey_eq, u2, key_diff_last] at u6
        · rwa [o2 hk0, add_zero] at u6
        · intro e
          have he : e.castSucc ≠ Fin.last (k + 1) := (Fin.castSucc_lt_last e).ne
          rcases hlast e.castSucc with h | h | h
          · rw [h]; exact u3
          · rw [h]; exact u4
          · exact absurd h.2 he
    · rintro ⟨hb, hadj'⟩
      have hadj : ∀ d, -1 ≤ cuCellOf g b (g.c.pts (cuPerm g i)) d - cuCellOf g b p d ∧
          cuCellOf g b (g.c.pts (cuPerm g i)) d - cuCellOf g b p d ≤ 1 := fun d => abs_le.mp (hadj' d)
      let off : Fin (k + 2) → ℤ := fun d =>
        if k ≠ 0 ∧ d = Fin.last _ then 0 else cuCellOf g b (g.c.pts (cuPerm g i)) d - cuCellOf g b p d
      have ho : off ∈ cuOffsets (k + 2) 1 := by
        rw [mem_cuOffsets]
        constructor
        · intro d
          simp only [off]
          split
          · omega
          · exact hadj d
        · intro hk
          exact if_pos ⟨hk, rfl⟩
      have hsame : ∀ d, ¬ (k ≠ 0 ∧ d = Fin.last _) →
          cuCellOf g b p d + off d = cuCellOf g b (g.c.pts (cuPerm g i)) d := by
        intro d h
        simp only [off]
        rw [if_neg h]
        ring
      refine ⟨off, ho, ?_⟩
      rw [mem_range'_iff, (h1 off ho).2 i]
      have hcr := cuCellOf_range g b (g.c.pts (cuPerm g i))
      have hpr := cuCellOf_range g b p
      refine ⟨?_, hb, ?_, ?_, ?_⟩
      · intro d
        by_cases h : k ≠ 0 ∧ d = Fin.last _
        · have : off d = 0 := if_pos h
          rw [this, add_zero]
          exact hpr d
        · rw [hsame d h]
          exact hcr d
      · rw [hb, hsame 0 (by
          rintro ⟨_, h⟩
          have := congrArg Fin.val h
          rw [Fin.val_last, Fin.val_zero] at this
          omega)]
      · rw [hb, hsame 1 (by
          rintro ⟨h0, h⟩
          have := congrArg Fin.val h
          rw [Fin.val_last, Fin.val_one] at this
          omega)]
      · intro hk
        rw [cuSortedKeys_lt g i.isLt, cuGridKey_eq, hb, key_diff_last]
        · have h0 : off (Fin.last _) = 0 := if_pos ⟨hk, rfl⟩
          rw [h0, add_zero]
          exact hadj' _
        · intro d
          rw [hsame d.castSucc (by
            rintro ⟨_, h⟩
            exact absurd h (Fin.castSucc_lt_last d).ne)]

/-- **C150, where the examined points lie.** In two and three dimensions the distances computed for one
centre, wherever it lies, belong to different points of its batch element inside one box of three cell
sizes per dimension. -/
theorem C150_box (g : Grid (k + 2) K) (hk : k ≤ 1) (hv : g.c.Valid) (hcs : ∀ d, 0 < g.cs d) (heps : 0 < g.eps)
    (tab : ℤ → ℕ × ℕ) (ht : BuiltTable g tab) (b : ℕ) (p : Fin (k + 2) → K) (fuel : ℕ)
    (hf : Nat.clog 2 g.c.n + 1 ≤ fuel) :
    ∃ (l : List ℕ) (lo : Fin (k + 2) → K),
      cuCandidates fuel g tab b p (offsetBlocks (k + 2) 1).flatten = some l ∧ l.Nodup ∧
      ∀ i ∈ l, ∃ h : i < g.c.n, g.c.batch (cuPerm g ⟨i, h⟩) = b ∧
        ∀ d, lo d ≤ g.c.pts (cuPerm g ⟨i, h⟩) d ∧ g.c.pts (cuPerm g ⟨i, h⟩) d < lo d + 3 * g.cs d := by
  obtain ⟨l, hl, hnd, hlt, hmem⟩ := C150_tested g hk tab ht b p fuel hf
  refine ⟨l, fun d => (aabbMin g.eps g.c b d).getD 0 + ((cuCellOf g b p d - 1 : ℤ) : K) * g.cs d, hl, hnd, ?_⟩
  intro i hi
  have hn := hlt i hi
  obtain ⟨hb, hadj⟩ := (hmem ⟨i, hn⟩).mp hi
  refine ⟨hn, hb, fun d => ?_⟩
  obtain ⟨j, hj, hmin, hjle⟩ := aabbMin_own g.eps g.c (cuPerm g ⟨i, hn⟩) d
  rw [hb] at hmin
  have hfl := cuCellOf_floor g hv hcs heps b _ d _ _ hb hb le_rfl le_rfl _ hmin
  obtain ⟨a1, a2⟩ := floor_bounds (hcs d) hfl
  dsimp only
  rw [hmin, Option.getD_some]
  have hc := hcs d
  obtain ⟨q1, q2⟩ := abs_le.mp (hadj d)
  have c1 : ((cuCellOf g b p d - 1 : ℤ) : K) ≤ (cuCellOf g b (g.c.pts (cuPerm g ⟨i, hn⟩)) d : ℤ) :=
    Int.cast_le.mpr (by omega)
  have c2 : ((cuCellOf g b (g.c.pts (cuPerm g ⟨i, hn⟩)) d : ℤ) : K) ≤ ((cuCellOf g b p d - 1 : ℤ) : K) + 2 := by
    have : (cuCellOf g b (g.c.pts (cuPerm g ⟨i, hn⟩)) d : ℤ) ≤ (cuCellOf g b p d - 1) + 2 := by omega
    have := (Int.cast_le (R := K)).mpr this
    push_cast at this ⊢
    exact this
  have m1 := mul_le_mul_of_nonneg_right c1 hc.le
  have m2 := mul_le_mul_of_nonneg_right c2 hc.le
  constructor <;> linarith

/-- **C150, examined points are near.** If the centre lies between the extreme coordinates of its batch
element, every examined point is closer than two cell sizes along each dimension. -/
theorem C150_near (g : Grid (k + 2) K) (hk : k ≤ 1) (hv : g.c.Valid) (hcs : ∀ d, 0 < g.cs d) (heps : 0 < g.eps)
    (tab : ℤ → ℕ × ℕ) (ht : BuiltTable g tab) (b : ℕ) (p : Fin (k + 2) → K)
    (hp : ∀ d, ∃ u v : Fin g.c.n, g.c.batch u = b ∧ g.c.batch v = b ∧ g.c.pts u d ≤ p d ∧ p d ≤ g.c.pts v d)
    (fuel : ℕ) (hf : Nat.clog 2 g.c.n + 1 ≤ fuel) :
    ∃ l, cuCandidates fuel g tab b p (offsetBlocks (k + 2) 1).flatten = some l ∧
      ∀ i ∈ l, ∃ h : i < g.c.n, ∀ d, |g.c.pts (cuPerm g ⟨i, h⟩) d - p d| < 2 * g.cs d := by
  obtain ⟨l, hl, hnd, hlt, hmem⟩ := C150_tested g hk tab ht b p fuel hf
  refine ⟨l, hl, fun i hi => ?_⟩
  have hn := hlt i hi
  obtain ⟨hb, hadj⟩ := (hmem ⟨i, hn⟩).mp hi
  refine ⟨hn, fun d => ?_⟩
  obtain ⟨j, hj, hmin, hjle⟩ := aabbMin_own g.eps g.c (cuPerm g ⟨i, hn⟩) d
  rw [hb] at hmin
  obtain ⟨u, v, hu, hv', hlo, hhi⟩ := hp d
  obtain ⟨a1, a2⟩ := floor_bounds (hcs d) (cuCellOf_floor g hv hcs heps b _ d _ _ hb hb le_rfl le_rfl _ hmin)
  obtain ⟨b1, b2⟩ := floor_bounds (hcs d) (cuCellOf_floor g hv hcs heps b p d u v hu hv' hlo hhi _ hmin)
  have hc := hcs d
  obtain ⟨q1, q2⟩ := abs_le.mp (hadj d)
  have c1 : ((cuCellOf g b p d : ℤ) : K) ≤ (cuCellOf g b (g.c.pts (cuPerm g ⟨i, hn⟩)) d : ℤ) + 1 := by
    have := (Int.cast_le (R := K)).mpr (by omega :
      cuCellOf g b p d ≤ cuCellOf g b (g.c.pts (cuPerm g ⟨i, hn⟩)) d + 1)
    push_cast at this
    exact this
  have c2 : ((cuCellOf g b (g.c.pts (cuPerm g ⟨i, hn⟩)) d : ℤ) : K) ≤ (cuCellOf g b p d : ℤ) + 1 := by
    have := (Int.cast_le (R := K)).mpr (by omega :
      cuCellOf g b (g.c.pts (cuPerm g ⟨i, hn⟩)) d ≤ cuCellOf g b p d + 1)
    push_cast at this
    exact this
  have m1 := mul_le_mul_of_nonneg_right c1 hc.le
  have m2 := mul_le_mul_of_nonneg_right c2 hc.le
  rw [abs_lt]
  constructor <;> linarith

/-- **C150, bounded work.** On a cloud whose points of one element keep a scaled distance of at least 1
(a Poisson sample), the number of distances computed for a centre does not depend on the number of points. -/
theorem C150_work (g : Grid (k + 2) K) (hk : k ≤ 1) (hv : g.c.Valid) (hcs : ∀ d, 0 < g.cs d) (heps : 0 < g.eps)
    (tab : ℤ → ℕ × ℕ) (ht : BuiltTable g tab) (b : ℕ) (p : Fin (k + 2) → K) (fuel : ℕ)
    (hf : Nat.clog 2 g.c.n + 1 ≤ fuel) (rad : Fin (k + 2) → K) (hr : ∀ d, 0 < rad d)
    (hsep : ∀ u v, u ≠ v → g.c.batch u = g.c.batch v →
      1 ≤ ∑ d, ((g.c.pts u d - g.c.pts v d) / rad d) ^ 2)
    (m : ℕ) (hm : ∀ d, 3 * g.cs d ≤ m * rad d) :
    ∃ l, cuCandidates fuel g tab b p (offsetBlocks (k + 2) 1).flatten = some l ∧
      l.length ≤ (m * (k + 2)) ^ (k + 2) := by
  obtain ⟨l, lo, hl, hnd, hbox⟩ := C150_box g hk hv hcs heps tab ht b p fuel hf
  refine ⟨l, hl, ?_⟩
  have hlt : ∀ i ∈ l, i < g.c.n := fun i hi => (hbox i hi).1
  let s : Finset (Fin g.c.n) := Finset.univ.filter fun u => g.c.batch u = b ∧
    ∀ d, lo d ≤ g.c.pts u d ∧ g.c.pts u d < lo d + 3 * g.cs d
  have hs : s.card ≤ (m * (k + 2)) ^ (k + 2) := by
    refine packing (fun u => g.c.pts u) rad hr s ?_ lo m ?_
    · intro u hu v hv huv
      exact hsep u v huv ((Finset.mem_filter.1 hu).2.1.trans (Finset.mem_filter.1 hv).2.1.symm)
    · intro u hu d
      have := (Finset.mem_filter.1 hu).2.2 d
      exact ⟨this.1, lt_of_lt_of_le this.2 (by linarith [hm d])⟩
  refine le_trans ?_ hs
  rw [← List.toFinset_card_of_nodup hnd]
  refine (Finset.card_le_card (t := s.image fun u => ((cuPerm g).symm u).val) ?_).trans Finset.card_image_le
  intro i hi
  obtain ⟨h, hb, hd⟩ := hbox i (List.mem_toFinset.mp hi)
  exact Finset.mem_image.mpr ⟨cuPerm g ⟨i, h⟩, Finset.mem_filter.mpr ⟨Finset.mem_univ _, hb, hd⟩, by simp⟩

end

/-- **C150 fails in four dimensions**: with one cell along the last dimension the first point is examined
twice for the centre at its own position. -/
theorem C150_four_false : ¬ ∀ (g : Grid 4 ℚ) (tab : ℤ → ℕ × ℕ), g.c.Valid → BuiltTable g tab →
    (∀ d, 0 < g.cs d) → ∀ (b : ℕ) (p : Fin 4 → ℚ) (fuel : ℕ), Nat.clog 2 g.c.n + 1 ≤ fuel →
    ∀ l, cuCandidates fuel g tab b p (offsetBlocks 4 1).flatten = some l → l.Nodup := by
  intro h
  have h1 := h exDup exDupTab (by intro i; decide +revert +kernel)
    ⟨1, _, one_pos, Interleave.exists_seq _, rfl⟩ (by decide +kernel) 0 (fun _ => 0) 5
    (by decide +kernel)
  have h2 : ∃ l, cuCandidates 5 exDup exDupTab 0 (fun _ => 0) (offsetBlocks 4 1).flatten = some l ∧ ¬ l.Nodup :=
    ⟨((cuCandidates 5 exDup exDupTab 0 (fun _ => 0) (offsetBlocks 4 1).flatten).getD []),
      by decide +kernel, by decide +kernel⟩
  obtain ⟨l, hl, hn⟩ := h2
  exact hn (h1 l hl)

/-- Three points in three dimensions, the third one far away. -/
abbrev exWork : Grid 3 ℚ :=
  ⟨⟨3, fun i d => if d = 2 then (![0, 1 / 2, 5] : Fin 3 → ℚ) i else 0, fun _ => 0, 1⟩, fun _ => 1, 1 / 100⟩

abbrev exWorkTab : ℤ → ℕ × ℕ := fun s =>
  buildDsResult (buildDsThreads (cuNc exWork) (cuSortedKeys exWork) exWork.c.n 2).flatten s

/-- A three-dimensional case of C150 with all hypotheses satisfied: the third point (first in the sorted
order) is not examined for the first one, and all pairs keep the scaled distance 1 for the radii 1/2. -/
example : exWork.c.Valid ∧ (∀ d, 0 < exWork.cs d) ∧ 0 < exWork.eps ∧ BuiltTable exWork exWorkTab ∧
    (cuCandidates 5 exWork exWorkTab 0 (exWork.c.pts 0) (offsetBlocks 3 1).flatten = some [1, 2]) ∧
    (∀ u v, u ≠ v → exWork.c.batch u = exWork.c.batch v →
      1 ≤ ∑ d, ((exWork.c.pts u d - exWork.c.pts v d) / (1 / 2 : ℚ)) ^ 2) ∧
    (∀ d, 3 * exWork.cs d ≤ (6 : ℕ) * (1 / 2 : ℚ)) := by
  refine ⟨by intro i; decide +revert +kernel, by decide +kernel, by decide +kernel,
    ⟨2, _, two_pos, Interleave.exists_seq _, rfl⟩, by decide +kernel, by decide +kernel, by decide +kernel⟩

end PC
