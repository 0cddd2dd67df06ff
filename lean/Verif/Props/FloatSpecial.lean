import Verif.Props.FloatSearch

/-!
# C126: coordinates that are not finite
-/

set_option linter.unusedVariables false

namespace PC

section
variable {K : Type*} [Field K] [LinearOrder K] [IsStrictOrderedRing K] [FloorRing K]

theorem foldr_squares {D : ℕ} (v : Fin D → Option K) (t : K) :
    Fin.foldr D (fun d acc => (v d).bind (fun x => acc.map (x * x + ·))) (some 0) = some t ↔
      ∃ x : Fin D → K, (∀ d, v d = some (x d)) ∧ t = ∑ d, x d * x d := by
  induction D generalizing t with
  | zero =>
    rw [Fin.foldr_zero]
    constructor
    · intro h; exact ⟨Fin.elim0, fun d => d.elim0, by simpa using h.symm⟩
    · rintro ⟨x, _, h⟩; rw [h]; simp
  | succ D ih =>
    rw [Fin.foldr_succ]
    constructor
    · intro h
      rw [Option.bind_eq_some_iff] at h
      obtain ⟨x0, h1, h2⟩ := h
      rw [Option.map_eq_some_iff] at h2
      obtain ⟨t', h3, h4⟩ := h2
      obtain ⟨x, h5, h6⟩ := (ih (fun d => v d.succ) t').mp h3
      refine ⟨Fin.cons x0 x, ?_, ?_⟩
      · intro d
        refine Fin.cases ?_ (fun d => ?_) d
        · exact h1
        · exact h5 d
      · rw [Fin.sum_univ_succ, ← h4, h6]; simp
    · rintro ⟨x, h1, h2⟩
      have := (ih (fun d => v d.succ) (∑ d : Fin D, x d.succ * x d.succ)).mpr ⟨fun d => x d.succ, fun d => h1 d.succ, rfl⟩
      rw [h1 0, Option.bind_some, this, Option.map_some, h2, Fin.sum_univ_succ]

theorem Flt.test_iff {D : ℕ} (p q : Fin D → Flt K) (rad : Fin D → K) :
    Flt.test p q rad = true ↔ ∃ a b : Fin D → K, (∀ d, p d = .fin (a d)) ∧ (∀ d, q d = .fin (b d)) ∧
      ∑ d, ((a d - b d) / rad d) ^ 2 < 1 := by
  have hfin : ∀ (x y : Flt K) (s z : K), Flt.toK (Flt.scale s (Flt.sub x y)) = some z ↔
      ∃ a b, x = .fin a ∧ y = .fin b ∧ z = (a - b) * s := by
    intro x y s z
    cases x <;> cases y <;> simp [Flt.sub, Flt.scale, Flt.toK, eq_comm]
  unfold Flt.test
  constructor
  · intro h
    split at h
    · next t ht =>
      rw [decide_eq_true_eq] at h
      obtain ⟨x, h1, h2⟩ := (foldr_squares _ t).mp ht
      choose a b ha hb hz using fun d => (hfin _ _ _ _).mp (h1 d)
      refine ⟨a, b, ha, hb, ?_⟩
      refine lt_of_le_of_lt (le_of_eq ?_) h
      rw [h2]
      exact Finset.sum_congr rfl (fun d _ => by rw [hz d]; ring)
    · exact absurd h (by simp)
  · rintro ⟨a, b, ha, hb, h⟩
    have := (foldr_squares (fun d => Flt.toK (Flt.scale (rad d)⁻¹ (Flt.sub (p d) (q d))))
      (∑ d, ((a d - b d) * (rad d)⁻¹) * ((a d - b d) * (rad d)⁻¹))).mpr
      ⟨_, fun d => (hfin _ _ _ _).mpr ⟨a d, b d, ha d, hb d, rfl⟩, rfl⟩
    rw [this]
    dsimp only
    rw [decide_eq_true_eq]
    refine lt_of_le_of_lt (le_of_eq ?_) h
    exact Finset.sum_congr rfl (fun d _ => by ring)

/-- Finite points of one element are in adjacent cells if they are close, whatever the corner of the box. -/
theorem Flt.cell_adjacent {D : ℕ} (junk : Flt K → ℤ) (lo : Fin D → Flt K) (cs : Fin D → K) (nc : Fin D → ℤ) (hn : ∀ d, 0 < nc d)
    (p q : Fin D → Flt K) (d : Fin D) (a b : K) (hp : p d = .fin a) (hq : q d = .fin b) (hc : 0 < cs d)
    (h : |a - b| < cs d) : |Flt.cell junk lo cs nc q d - Flt.cell junk lo cs nc p d| ≤ 1 := by
  unfold Flt.cell
  rw [hp, hq]
  cases hl : lo d with
  | nan => simp [Flt.scale, Flt.sub, Flt.toInt]
  | pinf => simp [Flt.scale, Flt.sub, Flt.toInt]
  | ninf => simp [Flt.scale, Flt.sub, Flt.toInt]
  | fin m =>
    simp only [Flt.scale, Flt.sub, Flt.toInt]
    rw [abs_lt] at h
    have e1 : a * (cs d)⁻¹ < b * (cs d)⁻¹ + 1 := by
      rw [← div_eq_mul_inv, ← div_eq_mul_inv, div_lt_iff₀ hc, add_mul, div_mul_cancel₀ _ hc.ne']
      linarith
    have e2 : b * (cs d)⁻¹ < a * (cs d)⁻¹ + 1 := by
      rw [← div_eq_mul_inv, ← div_eq_mul_inv, div_lt_iff₀ hc, add_mul, div_mul_cancel₀ _ hc.ne']
      linarith
    have f1 := floor_near (x := a * (cs d)⁻¹ - m * (cs d)⁻¹) (y := b * (cs d)⁻¹ - m * (cs d)⁻¹) (by linarith)
    have f2 := floor_near (x := b * (cs d)⁻¹ - m * (cs d)⁻¹) (y := a * (cs d)⁻¹ - m * (cs d)⁻¹) (by linarith)
    have := hn d
    rw [abs_le]
    omega

/-- **C126, finite values.** For finite coordinates and corners the cell and the test are those of the search in
exact arithmetic (C58). -/
theorem C126_finite {D : ℕ} (junk : Flt K → ℤ) (lo p q cs rad : Fin D → K) (nc : Fin D → ℤ) :
    Flt.cell junk (fun d => .fin (lo d)) cs nc (fun d => .fin (p d)) =
      cuCell p (fun d => lo d / cs d) nc (fun d => (cs d)⁻¹) ∧
    (Flt.test (fun d => .fin (p d)) (fun d => .fin (q d)) rad = true ↔ cuTest p q (fun d => (rad d)⁻¹)) := by
  constructor
  · funext d
    simp only [Flt.cell, Flt.scale, Flt.sub, Flt.toInt, cuCell, div_eq_mul_inv]
  · rw [Flt.test_iff]
    unfold cuTest normLt
    constructor
    · rintro ⟨a, b, ha, hb, h⟩
      have ea : a = p := funext fun d => (Flt.fin.inj (ha d)).symm
      have eb : b = q := funext fun d => (Flt.fin.inj (hb d)).symm
      subst ea eb
      simpa [div_eq_mul_inv, sq] using h
    · intro h
      refine ⟨p, q, fun _ => rfl, fun _ => rfl, ?_⟩
      simpa [div_eq_mul_inv, sq] using h

/-- **C126.** For coordinates of all kinds, arbitrary corners of the boxes, any positive numbers of cells and all
schedules: every slot is written exactly once, and the slot range of centre `s` contains exactly the pairs of `s` with
the points of its batch element for which all coordinates of both are finite and which are closer than the radii. -/
theorem C126_find_neighbors_partial {k : ℕ} (f : FltSearch (k + 2) K) (hnc : ∀ d, 0 < f.nc d) (hr : ∀ d, 0 < f.rad d)
    (hle : ∀ d, f.rad d ≤ f.cs d) (tab : ℤ → ℕ × ℕ) (ht : f.cloud.Built tab) (fuel : ℕ)
    (hf : Nat.clog 2 f.n + 1 ≤ fuel) (S Wc Ws Wn : ℕ) (hWc : 0 < Wc) (hWs : 0 < Ws) (hWn : 0 < Wn) (hS : 0 < S)
    (hone : S ≤ 512 + Ws * 64) (total : ℕ) (res : StoreMem) (h : FindRun S offsetsPerBlock Wc Ws Wn
      ((offsetBlocks (k + 2) 1).map (f.cloud.ranges fuel tab f.cenCell)) f.hit total res) :
    (res.writes.map Prod.fst).Perm (List.range total) ∧ ∀ s < S,
    let lo := if s = 0 then 0 else res.cnt (s - 1)
    lo ≤ res.cnt s ∧ res.cnt s ≤ total ∧ (s + 1 = S → res.cnt s = total) ∧
    (∀ i s', (∃ j, lo ≤ j ∧ j < res.cnt s ∧ res.out j = (i, s')) ↔
      s' = s ∧ ∃ hi : i < f.n, f.batch (f.sorted ⟨i, hi⟩) = f.cenBatch s ∧ ∃ a b : Fin (k + 2) → K,
        f.cen s = (fun d => .fin (a d)) ∧ f.pts (f.sorted ⟨i, hi⟩) = (fun d => .fin (b d)) ∧
        ∑ d, ((a d - b d) / f.rad d) ^ 2 < 1) := by
  have hcs : ∀ d, 0 < f.cs d := fun d => lt_of_lt_of_le (hr d) (hle d)
  have hrange : ∀ lo p d, 0 ≤ Flt.cell f.junk lo f.cs f.nc p d ∧ Flt.cell f.junk lo f.cs f.nc p d < f.nc d := by
    intro lo p d
    have := hnc d
    unfold Flt.cell
    omega
  have hin : f.cloud.InRange := fun i => hrange _ _
  obtain ⟨h1, h2, h3, h4⟩ := findRun_spec S offsetsPerBlock Wc Ws Wn hWc hWs hWn (by decide) hS hone _ _
    total res h
  refine ⟨h3, ?_⟩
  intro s hs lo
  have hex := CellCloud.examined (c := f.cloud) hin hnc tab ht f.cenCell (fun s => hrange _ _) fuel hf f.hit s
  generalize hl : allFinds offsetsPerBlock ((offsetBlocks (k + 2) 1).map (f.cloud.ranges fuel tab f.cenCell)) f.hit = L at *
  have hlo' : lo = ∑ x ∈ Finset.range s, (L x).length := by
    simp only [lo]
    split
    · next e => subst e; simp
    · next e => rw [h2 (s - 1) (by omega), show s - 1 + 1 = s by omega]
  have hhi : res.cnt s = lo + (L s).length := by rw [h2 s hs, hlo', Finset.sum_range_succ]
  have hp := h4 s hs
  rw [← hlo'] at hp
  refine ⟨by omega, ?_, ?_, ?_⟩
  · rw [h2 s hs, h1]
    exact Finset.sum_le_sum_of_subset (Finset.range_subset_range.mpr (by omega))
  · intro e; rw [h2 s hs, h1, e]
  · intro i s'
    have e : (∃ j, lo ≤ j ∧ j < res.cnt s ∧ res.out j = (i, s')) ↔ (i, s') ∈ (List.range' lo (L s).length).map res.out := by
      rw [List.mem_map]
      constructor
      · rintro ⟨j, a, b, c⟩
        exact ⟨j, by rw [List.mem_range'_1]; omega, c⟩
      · rintro ⟨j, a, c⟩
        rw [List.mem_range'_1] at a
        exact ⟨j, a.1, by omega, c⟩
    rw [e, hp.mem_iff, List.mem_map]
    constructor
    · rintro ⟨p, hpm, e⟩
      cases e
      refine ⟨rfl, ?_⟩
      obtain ⟨hh, hi, hb⟩ := (hex i).1 hpm
      have hi' : i < f.n := hi
      refine ⟨hi', hb, ?_⟩
      unfold FltSearch.hit at hh
      rw [dif_pos hi'] at hh
      obtain ⟨a, b, ha, hb', hd⟩ := (Flt.test_iff _ _ _).mp hh
      exact ⟨a, b, funext ha, funext hb', hd⟩
    · rintro ⟨rfl, hi, hb, a, b, ha, hb', hd⟩
      refine ⟨i, (hex i).2 hi ?_ hb ?_, rfl⟩
      · unfold FltSearch.hit
        rw [dif_pos hi, Flt.test_iff]
        exact ⟨a, b, fun d => congrFun ha d, fun d => congrFun hb' d, hd⟩
      · intro d
        have hlt := lt_of_lt_of_le (abs_lt_of_scaled (fun d => a d - b d) f.rad hr hd d) (hle d)
        have := Flt.cell_adjacent f.junk (f.lo (f.cenBatch s')) f.cs f.nc hnc (f.cen s') (f.pts (f.sorted ⟨i, hi⟩)) d (a d) (b d)
          (congrFun ha d) (congrFun hb' d) (hcs d) hlt
        rw [← hb] at this
        show |Flt.cell f.junk (f.lo (f.batch (f.sorted ⟨i, hi⟩))) f.cs f.nc (f.pts (f.sorted ⟨i, hi⟩)) d -
          Flt.cell f.junk (f.lo (f.cenBatch s')) f.cs f.nc (f.cen s') d| ≤ 1
        rw [← hb]
        exact this

end

/-- A cloud of three points, one of them with a coordinate that is not a number, which spoils the corner of the box. -/
abbrev exFlt : FltSearch 2 ℚ :=
  ⟨3, ![![.fin 0, .fin 0], ![.nan, .fin 0], ![.fin (1 / 2), .fin 0]], fun _ => 0, fun _ => ![.nan, .fin 0], fun _ => 1, fun _ => 1,
    fun _ => 1, fun _ => 0, fun _ => ![.fin 0, .fin 0], fun _ => 0⟩

/-- The hypotheses hold, a run exists, and it returns the two finite points. -/
example : ∃ (tab : ℤ → ℕ × ℕ) (total : ℕ) (res : StoreMem), exFlt.cloud.Built tab ∧ FindRun 1 offsetsPerBlock 1 1 1
    ((offsetBlocks 2 1).map (exFlt.cloud.ranges 5 tab exFlt.cenCell)) exFlt.hit total res ∧
    ∀ i, (∃ j, j < total ∧ res.out j = (i, 0)) ↔ i = 0 ∨ i = 2 := by
  obtain ⟨tr, htr⟩ : ∃ tr, Interleave (buildDsThreads exFlt.cloud.nc exFlt.cloud.sortedKeys exFlt.cloud.n 1) tr :=
    ⟨_, Interleave.exists_seq _⟩
  have ht : exFlt.cloud.Built (fun s => buildDsResult tr s) := ⟨1, tr, one_pos, htr, rfl⟩
  obtain ⟨total, res, hrun⟩ := C58_run_exists 1 offsetsPerBlock 1 1 1 one_pos one_pos (by norm_num)
    ((offsetBlocks 2 1).map (exFlt.cloud.ranges 5 (fun s => buildDsResult tr s) exFlt.cenCell)) exFlt.hit
  refine ⟨_, total, res, ht, hrun, ?_⟩
  have key := (C126_find_neighbors_partial (k := 0) exFlt (fun _ => one_pos) (fun _ => one_pos) (fun _ => le_rfl) _ ht 5
    (by show Nat.clog 2 3 + 1 ≤ 5; decide) 1 1 1 1 one_pos one_pos one_pos one_pos (by norm_num) total res hrun).2 0 one_pos
  obtain ⟨_, _, h3, h4⟩ := key
  intro i
  rw [← h3 rfl]
  have h5 := h4 i 0
  have h6 : (∃ j, j < res.cnt 0 ∧ res.out j = (i, 0)) ↔
      ∃ j, (if (0 : ℕ) = 0 then 0 else res.cnt (0 - 1)) ≤ j ∧ j < res.cnt 0 ∧ res.out j = (i, 0) := by simp
  rw [h6, h5]
  have hs : ∀ i : Fin 3, exFlt.sorted i = i := by decide +kernel
  constructor
  · rintro ⟨_, hi, _, a, b, _, hb, _⟩
    have hi' : i < 3 := hi
    rw [hs ⟨i, hi'⟩] at hb
    by_contra hne
    have : i = 1 := by omega
    subst this
    have := congrFun hb 0
    exact absurd this (by simp)
  · intro h
    have hi : i < 3 := by omega
    refine ⟨rfl, hi, rfl, ![0, 0], ![if i = 0 then 0 else 1 / 2, 0], ?_, ?_, ?_⟩
    · funext d; fin_cases d <;> rfl
    · rw [hs ⟨i, hi⟩]
      rcases h with rfl | rfl <;> (funext d; fin_cases d <;> rfl)
    · rw [Fin.sum_univ_two]
      rcases h with rfl | rfl <;> norm_num

/-! ### more centres than the scan can handle -/

/-- One point in a grid of one cell. -/
abbrev oneCell : CellCloud 2 := ⟨1, fun _ => 0, fun _ _ => 0, fun _ => 1⟩

/-- Its table. -/
def oneTab (s : ℤ) : ℕ × ℕ := buildDsResult (buildDsThreads oneCell.nc oneCell.sortedKeys oneCell.n 1).flatten s

theorem oneTab_built : oneCell.Built oneTab :=
  ⟨1, _, one_pos, Interleave.exists_seq _, rfl⟩

/-- Every centre in the cell examines the point once. -/
theorem oneCell_finds (hit : ℕ → ℕ → Bool) (hh : ∀ s, hit s 0 = true) (s : ℕ) :
    (allFinds offsetsPerBlock ((offsetBlocks 2 1).map (oneCell.ranges 5 oneTab (fun _ => (0, fun _ => 0)))) hit s).length = 1 := by
  have hr : ∀ offs r, r < offsetsPerBlock → oneCell.ranges 5 oneTab (fun _ => (0, fun _ => 0)) offs (s * offsetsPerBlock + r) =
      oneCell.ranges 5 oneTab (fun _ => (0, fun _ => 0)) offs (0 * offsetsPerBlock + r) := by
    intro offs r hr
    unfold CellCloud.ranges
    have e2 : (s * offsetsPerBlock + r) % offsetsPerBlock = (0 * offsetsPerBlock + r) % offsetsPerBlock := by
      unfold offsetsPerBlock; omega
    rw [e2]
  have h1 : allFinds offsetsPerBlock ((offsetBlocks 2 1).map (oneCell.ranges 5 oneTab (fun _ => (0, fun _ => 0)))) hit s =
      (allFinds offsetsPerBlock ((offsetBlocks 2 1).map (oneCell.ranges 5 oneTab (fun _ => (0, fun _ => 0))))
        (fun _ _ => true) 0).filter (hit s) := by
    unfold allFinds passFinds
    rw [List.filter_flatMap, List.flatMap_map, List.flatMap_map]
    apply List.flatMap_congr
    intro offs _
    rw [List.filter_flatMap]
    apply List.flatMap_congr
    intro r hr'
    rw [hr offs r (List.mem_range.mp hr'), List.filter_true]
  have h2 : allFinds offsetsPerBlock ((offsetBlocks 2 1).map (oneCell.ranges 5 oneTab (fun _ => (0, fun _ => 0))))
      (fun _ _ => true) 0 = [0] := by decide +kernel
  rw [h1, h2]
  simp [hh]

/-- One point and centres at the origin. -/
abbrev oneFlt : FltSearch 2 ℚ :=
  ⟨1, fun _ _ => .fin 0, fun _ => 0, fun _ _ => .fin 0, fun _ => 1, fun _ => 1, fun _ => 1, fun _ => 0, fun _ _ => .fin 0,
    fun _ => 0⟩

/-- **C126 without the limit on the number of centres.** 1088 centres and one point, all finite and at the same place, one block
per kernel: a slot range can end outside of the output. -/
theorem C126_find_neighbors_false : ¬ ∀ (f : FltSearch 2 ℚ) (_ : ∀ d, 0 < f.nc d) (_ : ∀ d, 0 < f.rad d)
    (_ : ∀ d, f.rad d ≤ f.cs d) (tab : ℤ → ℕ × ℕ) (_ : f.cloud.Built tab) (fuel : ℕ)
    (_ : Nat.clog 2 f.n + 1 ≤ fuel) (S Wc Ws Wn : ℕ) (_ : 0 < Wc) (_ : 0 < Ws) (_ : 0 < Wn) (_ : 0 < S)
    (total : ℕ) (res : StoreMem) (_ : FindRun S offsetsPerBlock Wc Ws Wn
      ((offsetBlocks 2 1).map (f.cloud.ranges fuel tab f.cenCell)) f.hit total res), ∀ s < S, res.cnt s ≤ total := by
  intro H
  have hcell : ∀ p : Fin 2 → Flt ℚ, (∀ d, p d = .fin 0) → Flt.cell (fun _ => 0) (fun _ => .fin 0) (fun _ => (1 : ℚ)) (fun _ => 1) p =
      fun _ => 0 := by
    intro p hp
    funext d
    simp [Flt.cell, hp, Flt.scale, Flt.sub, Flt.toInt]
  have hcl : oneFlt.cloud = oneCell := by
    unfold FltSearch.cloud
    congr 1
    funext i
    exact hcell _ (fun _ => rfl)
  have hcen : oneFlt.cenCell = fun _ => (0, fun _ => 0) := by
    funext s
    exact Prod.ext rfl (hcell _ (fun _ => rfl))
  have hh : ∀ s, oneFlt.hit s 0 = true := by
    intro s
    unfold FltSearch.hit
    rw [dif_pos (show 0 < oneFlt.n by decide), Flt.test_iff]
    exact ⟨fun _ => 0, fun _ => 0, fun _ => rfl, fun _ => rfl, by simp⟩
  obtain ⟨res, hrun, hc⟩ := find_race offsetsPerBlock (by decide) _ _ (fun s _ => oneCell_finds oneFlt.hit hh s)
  have := H oneFlt (fun _ => one_pos) (fun _ => one_pos) (fun _ => le_rfl) oneTab (by rw [hcl]; exact oneTab_built) 5
    (by show Nat.clog 2 1 + 1 ≤ 5; decide) 1088 1 1 1 one_pos one_pos one_pos (by norm_num) 1088 res
    (by rw [hcl, hcen]; exact hrun) 961 (by norm_num)
  omega

/-- **C125 without the limit on the number of centres**, even without rounding errors. -/
theorem C125_find_neighbors_false : ¬ ∀ (f : FpSearch 2) (_ : f.Ok 0) (_ : ∀ d, 0 < f.rad d) (_ : ∀ d, f.rad d ≤ f.cs d)
    (tab : ℤ → ℕ × ℕ) (_ : f.c.Built tab) (fuel : ℕ) (_ : Nat.clog 2 f.c.n + 1 ≤ fuel)
    (S Wc Ws Wn : ℕ) (_ : 0 < Wc) (_ : 0 < Ws) (_ : 0 < Wn) (_ : 0 < S) (total : ℕ) (res : StoreMem)
    (_ : FindRun S offsetsPerBlock Wc Ws Wn
      ((offsetBlocks 2 1).map (f.c.ranges fuel tab (fun s => (f.cenBatch s, f.cenCell s)))) f.hit total res),
    ∀ s < S, res.cnt s ≤ total := by
  intro H
  let f : FpSearch 2 := ⟨fun _ _ => 0, oneCell, fun _ => 0, fun _ _ => 0, fun _ _ => 0, fun _ _ => 0, fun _ => 1, fun _ => 1,
    fun _ _ => true⟩
  have hcell : FpCell 0 (fun _ => (0 : ℝ)) (fun _ => 1) (fun _ => 1) (fun _ => 0) (fun _ : Fin 2 => 0) := by
    intro d
    exact ⟨1, 0, 0, 0, by simp [Rnd], by simp [Rnd], by simp [Rnd], by simp [Rnd], by simp⟩
  have hok : f.Ok 0 := by
    refine ⟨fun _ => one_pos, fun _ => hcell, fun _ => hcell, fun s i => ?_⟩
    refine ⟨fun _ => 0, 0, fun _ => ⟨1, 0, by simp [Rnd, f], by simp [Rnd, f], by simp [Rnd]⟩, ?_, by simp [f]⟩
    exact ⟨fun _ => 0, rfl, fun _ => ⟨0, by simp [Rnd], by simp [Rnd]⟩, by simp [Rnd]⟩
  obtain ⟨res, hrun, hc⟩ := find_race offsetsPerBlock (by decide) _ _ (fun s _ => oneCell_finds f.hit (fun _ => rfl) s)
  have := H f hok (fun _ => one_pos) (fun _ => le_rfl) oneTab oneTab_built 5
    (by show Nat.clog 2 1 + 1 ≤ 5; decide) 1088 1 1 1 one_pos one_pos one_pos (by norm_num) 1088 res hrun 961 (by norm_num)
  omega

end PC
