import Verif.CudaSamplingLemmas
import Verif.Props.CudaStore
import Verif.Props.Sampling

/-!
# C60, C61, C83: sampling on the GPU
-/

set_option linter.unusedVariables false
set_option linter.unusedSimpArgs false
set_option linter.unusedSectionVars false

namespace PC

variable {K : Type*} [Field K] [LinearOrder K] [IsStrictOrderedRing K] [FloorRing K]

/-! ## C60 -/

/-- Batch id and coordinates of the point at sorted position `i` (`_sorted_points`,
`_sorted_batch_ids`). -/
def cuSorted {D : ℕ} (g : Grid D K) (i : ℕ) : ℕ × (Fin D → K) :=
  if h : i < g.c.n then (g.c.batch (cuPerm g ⟨i, h⟩), g.c.pts (cuPerm g ⟨i, h⟩)) else (0, 0)

/-- Specification of neighbour lists over sorted positions: the points of the same
batch element at scaled distance below 1. -/
def NbExact {D : ℕ} (g : Grid D K) (rad : Fin D → K) (nb : ℕ → List ℕ) : Prop :=
  ∀ (i : ℕ) (hi : i < g.c.n) (j : ℕ), j ∈ nb i ↔ ∃ hj : j < g.c.n,
    g.c.batch (cuPerm g ⟨j, hj⟩) = g.c.batch (cuPerm g ⟨i, hi⟩) ∧
    ∑ d, ((g.c.pts (cuPerm g ⟨i, hi⟩) d - g.c.pts (cuPerm g ⟨j, hj⟩) d) / rad d) ^ 2 < 1

/-- Specification of a Poisson disk sample `sel` of a cloud: points of one batch
element are at scaled distance at least 1 from each other, and every point of the
cloud is closer than 1 to a selected point of its element. -/
structure IsPoissonSample {D n : ℕ} (c : Cloud (Fin D → K)) (rad : Fin D → K) (sel : Fin n → Fin c.n) :
    Prop where
  inj : Function.Injective sel
  separated : ∀ u v, u ≠ v → c.batch (sel u) = c.batch (sel v) →
    1 ≤ ∑ d, ((c.pts (sel u) d - c.pts (sel v) d) / rad d) ^ 2
  covers : ∀ i, ∃ u, c.batch (sel u) = c.batch i ∧
    ∑ d, ((c.pts i d - c.pts (sel u) d) / rad d) ^ 2 < 1

theorem scaled_comm {D : ℕ} (p q rad : Fin D → K) :
    ∑ d, ((p d - q d) / rad d) ^ 2 = ∑ d, ((q d - p d) / rad d) ^ 2 := by
  refine Finset.sum_congr rfl (fun d _ => ?_)
  rw [← neg_sub, neg_div, neg_sq]

/-- Keys of positions, decoded. -/
theorem cuDecode_sorted {D : ℕ} (g : Grid D K) {i : ℕ} (hi : i < g.c.n) :
    cuDecode (cuSortedKeys g i) (cuNc g) = ((g.c.batch (cuPerm g ⟨i, hi⟩) : ℤ),
      cuCellOf g (g.c.batch (cuPerm g ⟨i, hi⟩)) (g.c.pts (cuPerm g ⟨i, hi⟩))) := by
  rw [cuSortedKeys_lt g hi, cuGridKey_eq]
  exact C53_decode _ _ _ (Int.natCast_nonneg _) (cuCellOf_range g _ _)

/-- **C60.** Points that are processed in the same call but belong to different cells
are never neighbours, for radii up to the cell sizes. -/
theorem C60_cells_apart {D : ℕ} (g : Grid D K) (rad : Fin D → K) (hr : ∀ d, 0 < rad d)
    (hle : ∀ d, rad d ≤ g.cs d) (c i j : ℕ) (hi : i < g.c.n) (hj : j < g.c.n)
    (vi : pdValid (cuNc g) c (cuSortedKeys g i) = true) (vj : pdValid (cuNc g) c (cuSortedKeys g j) = true)
    (hne : cuSortedKeys g i ≠ cuSortedKeys g j) :
    g.c.batch (cuPerm g ⟨i, hi⟩) ≠ g.c.batch (cuPerm g ⟨j, hj⟩) ∨
    1 ≤ ∑ d, ((g.c.pts (cuPerm g ⟨i, hi⟩) d - g.c.pts (cuPerm g ⟨j, hj⟩) d) / rad d) ^ 2 := by
  by_contra hcon
  rw [not_or, not_not, not_le] at hcon
  obtain ⟨hb, hd⟩ := hcon
  have hcs : ∀ d, 0 < g.cs d := fun d => lt_of_lt_of_le (hr d) (hle d)
  rw [pdValid, decide_eq_true_eq, cuDecode_sorted g hi] at vi
  rw [pdValid, decide_eq_true_eq, cuDecode_sorted g hj] at vj
  apply hne
  rw [cuSortedKeys_lt g hi, cuSortedKeys_lt g hj, cuGridKey_eq, cuGridKey_eq, hb]
  congr 1
  funext d
  have hadj := cells_adjacent g hcs (g.c.pts (cuPerm g ⟨i, hi⟩)) (cuPerm g ⟨j, hj⟩) d (lt_of_lt_of_le
      (abs_lt_of_scaled (fun d => g.c.pts (cuPerm g ⟨i, hi⟩) d - g.c.pts (cuPerm g ⟨j, hj⟩) d) rad hr hd d)
      (hle d))
  have e1 := vi d
  have e2 := vj d
  simp only at e1 e2
  rw [hb] at e1
  have r1 := (cuCellOf_range g (g.c.batch (cuPerm g ⟨j, hj⟩)) (g.c.pts (cuPerm g ⟨i, hi⟩)) d).1
  have r2 := (cuCellOf_range g (g.c.batch (cuPerm g ⟨j, hj⟩)) (g.c.pts (cuPerm g ⟨j, hj⟩)) d).1
  rw [Int.tmod_eq_emod_of_nonneg r1] at e1
  rw [Int.tmod_eq_emod_of_nonneg r2] at e2
  omega

/-- **C60.** Poisson disk sampling on the GPU with exact neighbour lists: in every
schedule of every launch the number of samples equals the number of written
outputs, the outputs have no gaps, and the selected points (original indices `sel`)
form a Poisson disk sample. -/
theorem C60_poisson {D : ℕ} (g : Grid D K) (hn : 0 < g.c.n) (rad : Fin D → K) (hr : ∀ d, 0 < rad d)
    (hle : ∀ d, rad d ≤ g.cs d) (nb : ℕ → List ℕ) (hnb : NbExact g rad nb) (Wc Ws Wp Wo : ℕ) (hWc : 0 < Wc)
    (hWs : 0 < Ws) (hWp : 0 < Wp) (hWo : 0 < Wo) (n : ℕ) (out : StoreMem)
    (h : PdRun g.c.n Wc Ws Wp Wo (cuSortedKeys g) (cuNc g) nb n out) :
    out.cnt 0 = n ∧ (out.writes.map Prod.fst).Perm (List.range n) ∧
    ∃ sel : Fin n → Fin g.c.n, IsPoissonSample g.c rad sel ∧
      ∀ u : Fin n, ∃ hu : (out.out u.val).1 < g.c.n, sel u = cuPerm g ⟨(out.out u.val).1, hu⟩ := by
  obtain ⟨numKeys, m, pm, h1, h2, h3, h4, rfl⟩ := h
  have hg : Grouped g.c.n (cuSortedKeys g) := grouped_of_antitone (cuSortedKeys_antitone g)
  have hnk := countKeys_spec hn (by norm_num) hWc _ _ h1
  have hf := firstsOf_compact hg hn hWs m h2
  rw [← hnk] at hf
  have hnkpos : 0 < numKeys := by
    obtain ⟨u, hu, _⟩ := hf.surj 0 hn
    omega
  have hsym : ∀ i j, i < g.c.n → j < g.c.n → j ∈ nb i → i ∈ nb j := by
    intro i j hi hj hij
    obtain ⟨_, hb, hd⟩ := (hnb i hi j).mp hij
    refine (hnb j hj i).mpr ⟨hi, hb.symm, ?_⟩
    rw [scaled_comm]; exact hd
  have hdone := pdCalls_spec (nb := nb) (launchThreads_pos hnkpos hWp) hg hf hsym (by
    intro c i j hi hj vi vj hne hij
    obtain ⟨_, hb, hd⟩ := (hnb j hj i).mp hij
    rcases C60_cells_apart g rad hr hle c i j hi hj vi vj hne with h | h
    · exact h hb
    · rw [scaled_comm] at hd
      exact absurd hd (not_lt.mpr h)) (2 ^ D) le_rfl pm h3
  obtain ⟨c1, c2, c3⟩ := compact_spec pm.used (launchThreads_pos hn hWo) out h4
  have hcount : pm.count = ((List.range g.c.n).filter pm.used).length := by
    rw [hdone.count, ← List.toFinset_card_of_nodup (List.nodup_range.filter _)]
    congr 1
    ext i
    simp
  rw [← hcount] at c1 c2 c3
  have hmem : ∀ u < pm.count, (out.out u).1 < g.c.n ∧ pm.used (out.out u).1 = true := by
    intro u hu
    have : (out.out u).1 ∈ (List.range g.c.n).filter pm.used := by
      rw [← c3.mem_iff]
      exact List.mem_map.mpr ⟨u, List.mem_range.mpr hu, rfl⟩
    rw [List.mem_filter, List.mem_range] at this
    exact this
  have hnd : ((List.range pm.count).map (fun j => (out.out j).1)).Nodup :=
    c3.nodup_iff.mpr (List.nodup_range.filter _)
  have hinj : ∀ u v, u < pm.count → v < pm.count → (out.out u).1 = (out.out v).1 → u = v := by
    intro u v hu hv e
    exact List.inj_on_of_nodup_map hnd (List.mem_range.mpr hu) (List.mem_range.mpr hv) e
  refine ⟨c1, c2, fun u => cuPerm g ⟨(out.out u.val).1, (hmem u.val u.isLt).1⟩, ⟨?_, ?_, ?_⟩,
    fun u => ⟨_, rfl⟩⟩
  · intro u v e
    have e1 := congrArg Fin.val ((cuPerm g).injective e)
    exact Fin.ext (hinj u.val v.val u.isLt v.isLt e1)
  · intro u v huv hb
    by_contra hlt
    rw [not_le] at hlt
    have hij : (out.out v.val).1 ∈ nb (out.out u.val).1 :=
      (hnb _ (hmem u.val u.isLt).1 _).mpr ⟨(hmem v.val v.isLt).1, hb.symm, hlt⟩
    have := hdone.indep _ _ (hmem u.val u.isLt).2 (hmem v.val v.isLt).2 hij
    exact huv (Fin.ext (hinj u.val v.val u.isLt v.isLt this))
  · intro i
    let q : Fin g.c.n := (cuPerm g).symm i
    have hq : cuPerm g q = i := Equiv.apply_symm_apply _ _
    obtain ⟨c, hc, hv⟩ := pdValid_exists (cuNc g) (cuNc_pos g) (cuSortedKeys g q.val)
      (cuSortedKeys_nonneg g q.isLt)
    have hself : q.val ∈ nb q.val := by
      refine (hnb q.val q.isLt q.val).mpr ⟨q.isLt, rfl, ?_⟩
      simp
    have hex : ∃ x ∈ nb q.val, pm.used x = true := by
      rcases hdone.cover q.val ⟨q.isLt, c, hc, hv⟩ with h | h
      · exact ⟨q.val, hself, h⟩
      · exact h
    obtain ⟨x, hx, hux⟩ := hex
    have hxm : x ∈ (List.range pm.count).map (fun j => (out.out j).1) := by
      rw [c3.mem_iff, List.mem_filter, List.mem_range]
      exact ⟨(hdone.sub x hux).1, hux⟩
    obtain ⟨u, hu, rfl⟩ := List.mem_map.mp hxm
    obtain ⟨hj, hb, hd⟩ := (hnb q.val q.isLt _).mp hx
    refine ⟨⟨u, List.mem_range.mp hu⟩, ?_, ?_⟩
    · rw [← hq]; exact hb
    · rw [← hq]; exact hd

/-- **C60.** The op always has a run. -/
theorem C60_run_exists {D : ℕ} (N Wc Ws Wp Wo : ℕ) (keys : ℕ → ℤ) (nc : Fin D → ℤ) (nb : ℕ → List ℕ) :
    ∃ n out, PdRun N Wc Ws Wp Wo keys nc nb n out := by
  obtain ⟨numKeys, h1⟩ := exists_countKeys N 128 Wc keys
  obtain ⟨m, h2⟩ := exists_compact (isFirstKey keys) N (launchThreads N Ws)
  obtain ⟨pm, h3⟩ := exists_pdCalls (N := N) (keys := keys) (nc := nc) (firsts := fun u => (m.out u).1)
    (numKeys := numKeys) nb (launchThreads numKeys Wp) (2 ^ D)
  obtain ⟨out, h4⟩ := exists_compact pm.used N (launchThreads N Wo)
  exact ⟨_, out, numKeys, m, pm, h1, h2, h3, h4, rfl⟩

/-! ## C83 -/

variable {k : ℕ}

/-- The neighbour lists the search returns when the sorted points of the grid are
the centres (`Neighborhood(grid, radii)`: neighborhood.py without a sample cloud). -/
theorem nbExact_find (g : Grid (k + 2) K) (tab : ℤ → ℕ × ℕ) (ht : BuiltTable g tab) (hn : 0 < g.c.n)
    (rad : Fin (k + 2) → K) (hr : ∀ d, 0 < rad d) (hle : ∀ d, rad d ≤ g.cs d) (fuel : ℕ)
    (hf : Nat.clog 2 g.c.n + 1 ≤ fuel) (Wc Ws Wn : ℕ) (hWc : 0 < Wc) (hWs : 0 < Ws) (hWn : 0 < Wn)
    (hone : g.c.n ≤ 512 + Ws * 64) (total : ℕ) (res : StoreMem)
    (h : FindRun g.c.n offsetsPerBlock Wc Ws Wn
      ((offsetBlocks (k + 2) 1).map (opRanges fuel g tab (cuSorted g)))
      (opHit g (cuSorted g) (fun d => (rad d)⁻¹)) total res) : NbExact g rad (nbOf res) := by
  intro i hi j
  obtain ⟨h1, h2, h3, h4, _⟩ := C58_find_neighbors_partial g tab ht (cuSorted g) rad hr hle fuel hf g.c.n
    Wc Ws Wn hWc hWs hWn hn hone total res h i hi
  have hs : cuSorted g i = (g.c.batch (cuPerm g ⟨i, hi⟩), g.c.pts (cuPerm g ⟨i, hi⟩)) := dif_pos hi
  rw [hs] at h4
  have hlo : (if i = 0 then 0 else res.cnt (i - 1)) = (if i > 0 then res.cnt (i - 1) else 0) := by
    by_cases h0 : i = 0
    · subst h0; rfl
    · rw [if_neg h0, if_pos (by omega)]
  rw [hlo] at h1 h4
  unfold nbOf
  dsimp only
  generalize (if i > 0 then res.cnt (i - 1) else 0) = lo at h1 h4
  rw [List.mem_map]
  constructor
  · rintro ⟨a, ha, rfl⟩
    rw [List.mem_range'_1] at ha
    obtain ⟨_, hj, hb, hd⟩ := (h4 (res.out a).1 (res.out a).2).mp ⟨a, ha.1, by omega, rfl⟩
    exact ⟨hj, hb, hd⟩
  · rintro ⟨hj, hb, hd⟩
    obtain ⟨a, ha, ha', e⟩ := (h4 j i).mpr ⟨rfl, hj, hb, hd⟩
    refine ⟨a, ?_, by rw [e]⟩
    rw [List.mem_range'_1]
    omega

/-- **C83, what holds.** Grid, neighbour search and Poisson disk sampling on the GPU
together: for every schedule of every kernel the result is a Poisson disk sample of
the cloud.  Missing: clouds of more than `512 + 64 * Ws` points, for which the scan
kernel has a race (C57). -/
theorem C83_pipeline_partial (g : Grid (k + 2) K) (tab : ℤ → ℕ × ℕ) (ht : BuiltTable g tab)
    (hn : 0 < g.c.n) (rad : Fin (k + 2) → K) (hr : ∀ d, 0 < rad d) (hle : ∀ d, rad d ≤ g.cs d) (fuel : ℕ)
    (hf : Nat.clog 2 g.c.n + 1 ≤ fuel) (Wc Ws Wn : ℕ) (hWc : 0 < Wc) (hWs : 0 < Ws) (hWn : 0 < Wn)
    (hone : g.c.n ≤ 512 + Ws * 64) (total : ℕ) (res : StoreMem)
    (h : FindRun g.c.n offsetsPerBlock Wc Ws Wn
      ((offsetBlocks (k + 2) 1).map (opRanges fuel g tab (cuSorted g)))
      (opHit g (cuSorted g) (fun d => (rad d)⁻¹)) total res)
    (Vc Vs Vp Vo : ℕ) (hVc : 0 < Vc) (hVs : 0 < Vs) (hVp : 0 < Vp) (hVo : 0 < Vo) (n : ℕ) (out : StoreMem)
    (hp : PdRun g.c.n Vc Vs Vp Vo (cuSortedKeys g) (cuNc g) (nbOf res) n out) :
    ∃ sel : Fin n → Fin g.c.n, IsPoissonSample g.c rad sel ∧
      ∀ u : Fin n, ∃ hu : (out.out u.val).1 < g.c.n, sel u = cuPerm g ⟨(out.out u.val).1, hu⟩ :=
  (C60_poisson g hn rad hr hle _ (nbExact_find g tab ht hn rad hr hle fuel hf Wc Ws Wn hWc hWs hWn hone
    total res h) Vc Vs Vp Vo hVc hVs hVp hVo n out hp).2.2

/-- If every batch element has one point, every point has one neighbour. -/
theorem finds_single (g : Grid (k + 2) K) (hk : k ≤ 1) (hb : Function.Injective g.c.batch) (tab : ℤ → ℕ × ℕ)
    (ht : BuiltTable g tab) (rad : Fin (k + 2) → K) (hr : ∀ d, 0 < rad d) (hle : ∀ d, rad d ≤ g.cs d) (fuel : ℕ)
    (hf : Nat.clog 2 g.c.n + 1 ≤ fuel) (s : ℕ) (hs : s < g.c.n) :
    (allFinds offsetsPerBlock ((offsetBlocks (k + 2) 1).map (opRanges fuel g tab (cuSorted g)))
      (opHit g (cuSorted g) (fun d => (rad d)⁻¹)) s) = [s] := by
  have hA := allFinds_eq g tab ht (cuSorted g) (fun d => (rad d)⁻¹) fuel hf s
  have hcen : cuSorted g s = (g.c.batch (cuPerm g ⟨s, hs⟩), g.c.pts (cuPerm g ⟨s, hs⟩)) := dif_pos hs
  obtain ⟨l1, e1, h1⟩ := C56_sound g tab ht (cuSorted g s).1 (cuSorted g s).2 rad fuel hf
  obtain ⟨l2, e2, h2⟩ := C56_complete g tab ht (cuSorted g s).1 (cuSorted g s).2 rad hr hle fuel hf
  obtain ⟨l3, e3, h3⟩ := C56_no_duplicates_partial g tab ht (cuSorted g s).1 (cuSorted g s).2
    rad (Or.inl hk) fuel hf
  rw [hA] at e1 e2 e3
  cases e1; cases e2; cases e3
  generalize allFinds offsetsPerBlock ((offsetBlocks (k + 2) 1).map (opRanges fuel g tab (cuSorted g)))
    (opHit g (cuSorted g) (fun d => (rad d)⁻¹)) s = l at h1 h2 h3
  have hmem : s ∈ l := h2 ⟨s, hs⟩ (by rw [hcen]) (by rw [hcen]; simp)
  have hall : ∀ i ∈ l, i = s := by
    intro i hi
    obtain ⟨hlt, hb', -⟩ := h1 i hi
    rw [hcen] at hb'
    have := (cuPerm g).injective (hb hb')
    exact congrArg Fin.val this
  have hrep := List.eq_replicate_of_mem hall
  have hle := h3
  rw [hrep, List.nodup_replicate] at hle
  have hpos := List.length_pos_of_mem hmem
  rw [hrep, show l.length = 1 by omega]
  rfl

/-- 1088 batch elements of one point each, all at the origin. -/
abbrev crowd : Grid 2 ℚ := ⟨⟨1088, fun _ _ => 0, fun i => i.val, 1088⟩, fun _ => 1, 1 / 100⟩

/-- **C58 fails for the op beyond the size limit**: a cloud of 1088 batch elements of
one point each, the points themselves as centres, radius and cells of size one, one
block per kernel.  Every centre has one neighbour, itself; nevertheless a slot range
can end far outside of the output tensor. -/
theorem C58_find_neighbors_false : ¬ ∀ (g : Grid 2 ℚ) (tab : ℤ → ℕ × ℕ) (_ : BuiltTable g tab)
    (rad : Fin 2 → ℚ) (_ : ∀ d, 0 < rad d) (_ : ∀ d, rad d ≤ g.cs d) (fuel : ℕ)
    (_ : Nat.clog 2 g.c.n + 1 ≤ fuel) (Wc Ws Wn : ℕ) (_ : 0 < Wc) (_ : 0 < Ws) (_ : 0 < Wn) (_ : 0 < g.c.n)
    (total : ℕ) (res : StoreMem) (_ : FindRun g.c.n offsetsPerBlock Wc Ws Wn
      ((offsetBlocks 2 1).map (opRanges fuel g tab (cuSorted g)))
      (opHit g (cuSorted g) (fun d => (rad d)⁻¹)) total res), ∀ s < g.c.n, res.cnt s ≤ total := by
  intro H
  obtain ⟨tab, ht⟩ : ∃ tab, BuiltTable crowd tab := ⟨_, 1, _, one_pos, Interleave.exists_seq _, rfl⟩
  have hf : Nat.clog 2 crowd.c.n + 1 ≤ 12 := by decide +kernel
  have hone : ∀ s < 1088, (allFinds offsetsPerBlock ((offsetBlocks 2 1).map (opRanges 12 crowd tab (cuSorted crowd)))
      (opHit crowd (cuSorted crowd) (fun _ => (1 : ℚ)⁻¹)) s).length = 1 := by
    intro s hs
    rw [finds_single crowd (by norm_num) (fun i j h => Fin.ext h) tab ht (fun _ => 1) (fun _ => one_pos)
      (fun _ => le_refl _) 12 hf s hs]
    rfl
  obtain ⟨res, hrun, hc⟩ := find_race offsetsPerBlock (by decide) _ _ hone
  have := H crowd tab ht (fun _ => 1) (fun _ => one_pos) (fun _ => le_refl _) 12 hf 1 1 1 one_pos one_pos one_pos
    (by norm_num) 1088 res hrun 961 (by norm_num)
  rw [hc] at this
  norm_num at this

/-! ## C61 -/

/-- Specification: one sample per class of the relation `rel`, the mean of the
points of the class, with their batch id; `f` assigns samples to points. -/
structure IsGroupMeans {D N n : ℕ} (rel : Fin N → Fin N → Prop) (pts : Fin N → Fin D → K) (batch : Fin N → ℕ)
    (opts : Fin n → Fin D → K) (obatch : Fin n → ℤ) (f : Fin N → Fin n) : Prop where
  surj : Function.Surjective f
  cells : ∀ i j, f i = f j ↔ rel i j
  mean : ∀ s d, opts s d = (∑ i ∈ Finset.univ.filter (fun i => f i = s), pts i d) /
    ((Finset.univ.filter (fun i => f i = s)).card : K)
  batch : ∀ i, obatch (f i) = (batch i : ℤ)

/-- Two results for the same cloud and relation agree up to the numbering. -/
theorem IsGroupMeans.unique {D N n n' : ℕ} {rel : Fin N → Fin N → Prop} {pts : Fin N → Fin D → K}
    {batch : Fin N → ℕ} {opts : Fin n → Fin D → K} {obatch : Fin n → ℤ} {f : Fin N → Fin n}
    {opts' : Fin n' → Fin D → K} {obatch' : Fin n' → ℤ} {f' : Fin N → Fin n'}
    (h : IsGroupMeans rel pts batch opts obatch f) (h' : IsGroupMeans rel pts batch opts' obatch' f') :
    ∃ e : Fin n ≃ Fin n', ∀ s, opts s = opts' (e s) ∧ obatch s = obatch' (e s) := by
  have hff : ∀ i j, f i = f j ↔ f' i = f' j := fun i j => (h.cells i j).trans (h'.cells i j).symm
  let r := Function.surjInv h.surj
  have hr : ∀ s, f (r s) = s := Function.surjInv_eq h.surj
  let e : Fin n ≃ Fin n' := Equiv.ofBijective (fun s => f' (r s)) (by
    constructor
    · intro a b hab
      have := (hff _ _).mpr hab
      rwa [hr, hr] at this
    · intro b
      obtain ⟨i, rfl⟩ := h'.surj b
      exact ⟨f i, (hff _ _).mp (hr (f i))⟩)
  have he : ∀ i, e (f i) = f' i := fun i => (hff _ _).mp (hr (f i))
  refine ⟨e, ?_⟩
  intro s
  obtain ⟨i, rfl⟩ := h.surj s
  constructor
  · funext d
    rw [h.mean, h'.mean, he]
    have : (Finset.univ.filter (fun j => f j = f i)) = Finset.univ.filter (fun j => f' j = f' i) := by
      ext j
      simp only [Finset.mem_filter, Finset.mem_univ, true_and]
      exact hff j i
    rw [this]
  · rw [he, h.batch, h'.batch]

/-- **C61.** Cell average sampling on the GPU: in every schedule there is exactly one
sample for every occupied cell and batch element, the mean of its points, with their
batch id. -/
theorem C61_cell_average {D : ℕ} (g : Grid D K) (hn : 0 < g.c.n) (Wc Ws Wa : ℕ) (hWc : 0 < Wc)
    (hWs : 0 < Ws) (hWa : 0 < Wa) (n : ℕ) (out : ℕ → (Fin D → K) × ℤ)
    (h : AvgRun g.c.n Wc Ws Wa (cuSortedKeys g) (cuNc g) (fun i => (cuSorted g i).2) n out) :
    ∃ f : Fin g.c.n → Fin n, IsGroupMeans (fun i j => g.c.batch i = g.c.batch j ∧
        cuCellOf g (g.c.batch i) (g.c.pts i) = cuCellOf g (g.c.batch j) (g.c.pts j))
      g.c.pts g.c.batch (fun s => (out s.val).1) (fun s => (out s.val).2) f := by
  obtain ⟨m, tr, h1, h2, h3, rfl⟩ := h
  have hg : Grouped g.c.n (cuSortedKeys g) := grouped_of_antitone (cuSortedKeys_antitone g)
  have hnk := countKeys_spec hn (by norm_num) hWc _ _ h1
  have hf := firstsOf_compact hg hn hWs m h2
  rw [← hnk] at hf
  have hnpos : 0 < n := by
    obtain ⟨u, hu, _⟩ := hf.surj 0 hn
    omega
  generalize hfi : (fun u => (m.out u).1) = firsts at hf h3
  have hout := avg_out (launchThreads_pos hnpos hWa) tr h3
  have hex : ∀ i : Fin g.c.n, ∃ u : Fin n,
      cuSortedKeys g (firsts u.val) = cuSortedKeys g ((cuPerm g).symm i).val := by
    intro i
    obtain ⟨u, hu, e⟩ := hf.surj _ ((cuPerm g).symm i).isLt
    exact ⟨⟨u, hu⟩, e⟩
  choose f hfk using hex
  have hfiff : ∀ i s, f i = s ↔ cuSortedKeys g ((cuPerm g).symm i).val = cuSortedKeys g (firsts s.val) := by
    intro i s
    constructor
    · rintro rfl; exact (hfk i).symm
    · intro e
      exact Fin.ext (hf.inj _ _ (f i).isLt s.isLt ((hfk i).trans e))
  have hkey : ∀ i : Fin g.c.n, cuSortedKeys g ((cuPerm g).symm i).val =
      cuGridKey g (g.c.batch i) (g.c.pts i) := by
    intro i
    rw [cuSortedKeys_lt g ((cuPerm g).symm i).isLt, Fin.eta, Equiv.apply_symm_apply]
  have hdec : ∀ i : Fin g.c.n, cuDecode (cuGridKey g (g.c.batch i) (g.c.pts i)) (cuNc g) =
      ((g.c.batch i : ℤ), cuCellOf g (g.c.batch i) (g.c.pts i)) := by
    intro i
    rw [cuGridKey_eq]
    exact C53_decode _ _ _ (Int.natCast_nonneg _) (cuCellOf_range g _ _)
  refine ⟨f, ⟨?_, ?_, ?_, ?_⟩⟩
  · intro s
    have hs := (hf.first s.val s.isLt).1
    refine ⟨cuPerm g ⟨firsts s.val, hs⟩, ?_⟩
    rw [hfiff, Equiv.symm_apply_apply]
  · intro i j
    rw [hfiff, hfk, hkey, hkey]
    constructor
    · intro e
      have := congrArg (fun x => cuDecode x (cuNc g)) e
      simp only [hdec, Prod.mk.injEq] at this
      exact ⟨by exact_mod_cast this.1, this.2⟩
    · rintro ⟨e1, e2⟩
      rw [cuGridKey_eq, cuGridKey_eq, e2, e1]
  · intro s d
    rw [hout s.val s.isLt]
    have hs := hf.first s.val s.isLt
    -- the positions of the cell correspond to its points
    have hset : (cellRun g.c.n (cuSortedKeys g) (firsts s.val)).toFinset =
        (Finset.univ.filter (fun i => f i = s)).image (fun i => ((cuPerm g).symm i).val) := by
      ext q
      rw [List.mem_toFinset, mem_cellRun hg hs.1 hs.2, Finset.mem_image]
      constructor
      · rintro ⟨hq, e⟩
        refine ⟨cuPerm g ⟨q, hq⟩, ?_, by rw [Equiv.symm_apply_apply]⟩
        rw [Finset.mem_filter, hfiff, Equiv.symm_apply_apply]
        exact ⟨Finset.mem_univ _, e⟩
      · rintro ⟨i, hi, rfl⟩
        rw [Finset.mem_filter, hfiff] at hi
        exact ⟨((cuPerm g).symm i).isLt, hi.2⟩
    have hinj : Function.Injective (fun i : Fin g.c.n => ((cuPerm g).symm i).val) :=
      fun a b e => (cuPerm g).symm.injective (Fin.ext e)
    have hnd := nodup_cellRun g.c.n (cuSortedKeys g) (firsts s.val)
    have hsum : ((cellRun g.c.n (cuSortedKeys g) (firsts s.val)).map (fun j => (cuSorted g j).2 d)).sum =
        ∑ i ∈ Finset.univ.filter (fun i => f i = s), g.c.pts i d := by
      rw [← List.sum_toFinset _ hnd, hset, Finset.sum_image (fun a _ b _ e => hinj e)]
      refine Finset.sum_congr rfl (fun i _ => ?_)
      rw [cuSorted, dif_pos ((cuPerm g).symm i).isLt, Fin.eta, Equiv.apply_symm_apply]
    have hcard : (cellRun g.c.n (cuSortedKeys g) (firsts s.val)).length =
        (Finset.univ.filter (fun i => f i = s)).card := by
      rw [← List.toFinset_card_of_nodup hnd, hset, Finset.card_image_of_injective _ hinj]
    simp only
    rw [hsum, hcard]
  · intro i
    rw [hout (f i).val (f i).isLt]
    simp only
    rw [hfk, hkey, cuGridKey_eq, cuKey_eq, cuTotal_eq]
    obtain ⟨t1, t2⟩ := tailKey_range (cuNc g) (cuCellOf g (g.c.batch i) (g.c.pts i)) (cuCellOf_range g _ _)
    have hpos : 0 < mulZ (cuNc g) 0 := by omega
    rw [Int.tdiv_eq_ediv_of_nonneg (by positivity)]
    rw [Int.add_mul_ediv_left _ _ hpos.ne', Int.ediv_eq_zero_of_lt t1 t2, zero_add]

/-- **C61.** As a set of samples the result does not depend on the schedule or the
launch configuration. -/
theorem C61_schedule_independent {D : ℕ} (g : Grid D K) (hn : 0 < g.c.n) (Wc Ws Wa Vc Vs Va : ℕ)
    (hWc : 0 < Wc) (hWs : 0 < Ws) (hWa : 0 < Wa) (hVc : 0 < Vc) (hVs : 0 < Vs) (hVa : 0 < Va) (n n' : ℕ)
    (out out' : ℕ → (Fin D → K) × ℤ)
    (h : AvgRun g.c.n Wc Ws Wa (cuSortedKeys g) (cuNc g) (fun i => (cuSorted g i).2) n out)
    (h' : AvgRun g.c.n Vc Vs Va (cuSortedKeys g) (cuNc g) (fun i => (cuSorted g i).2) n' out') :
    n = n' ∧ ∃ e : Fin n ≃ Fin n', ∀ s : Fin n, out s.val = out' (e s).val := by
  obtain ⟨f, hf⟩ := C61_cell_average g hn Wc Ws Wa hWc hWs hWa n out h
  obtain ⟨f', hf'⟩ := C61_cell_average g hn Vc Vs Va hVc hVs hVa n' out' h'
  obtain ⟨e, he⟩ := hf.unique hf'
  exact ⟨by simpa using Fintype.card_congr e, e, fun s => Prod.ext (he s).1 (he s).2⟩

/-- **C61.** The GPU result is the cell average in the sense of C29: the cells are
those of the regular grid. -/
theorem C61_regular_cells {D : ℕ} (g : Grid D K) (hn : 0 < g.c.n) (hv : g.c.Valid) (hcs : ∀ d, 0 < g.cs d)
    (heps : 0 < g.eps) (Wc Ws Wa : ℕ) (hWc : 0 < Wc) (hWs : 0 < Ws) (hWa : 0 < Wa) (n : ℕ)
    (out : ℕ → (Fin D → K) × ℤ)
    (h : AvgRun g.c.n Wc Ws Wa (cuSortedKeys g) (cuNc g) (fun i => (cuSorted g i).2) n out) :
    ∃ f : Fin g.c.n → Fin n, IsGroupMeans (fun i j => g.c.batch i = g.c.batch j ∧
        SameCell g.eps g.c g.cs (g.c.batch i) (g.c.pts i) (g.c.pts j))
      g.c.pts g.c.batch (fun s => (out s.val).1) (fun s => (out s.val).2) f := by
  obtain ⟨f, hf⟩ := C61_cell_average g hn Wc Ws Wa hWc hWs hWa n out h
  refine ⟨f, ⟨hf.surj, ?_, hf.mean, hf.batch⟩⟩
  intro i j
  rw [hf.cells, ← (C13_keys_identify g hv hcs heps).1 i j]
  have hk : ∀ i, cuGridKey g (g.c.batch i) (g.c.pts i) = (g.key i : ℤ) := C81_same_keys g hv hcs heps
  constructor
  · rintro ⟨e1, e2⟩
    have : cuGridKey g (g.c.batch i) (g.c.pts i) = cuGridKey g (g.c.batch j) (g.c.pts j) := by
      rw [cuGridKey_eq, cuGridKey_eq, e2, e1]
    rw [hk, hk] at this
    exact_mod_cast this
  · intro e
    have e' : cuGridKey g (g.c.batch i) (g.c.pts i) = cuGridKey g (g.c.batch j) (g.c.pts j) := by
      rw [hk, hk, e]
    have := congrArg (fun x => cuDecode x (cuNc g)) e'
    simp only [cuGridKey_eq] at this
    rw [C53_decode _ _ _ (Int.natCast_nonneg _) (cuCellOf_range g _ _),
      C53_decode _ _ _ (Int.natCast_nonneg _) (cuCellOf_range g _ _), Prod.mk.injEq] at this
    exact ⟨by exact_mod_cast this.1, this.2⟩

/-- **C61.** The samples are those of the tensorflow implementation, up to their
order. -/
theorem C61_equals_tf {D : ℕ} (g : Grid D K) (hn : 0 < g.c.n) (hv : g.c.Valid) (hcs : ∀ d, 0 < g.cs d)
    (heps : 0 < g.eps) (Wc Ws Wa : ℕ) (hWc : 0 < Wc) (hWs : 0 < Ws) (hWa : 0 < Wa) (n B : ℕ)
    (out : ℕ → (Fin D → K) × ℤ)
    (h : AvgRun g.c.n Wc Ws Wa (cuSortedKeys g) (cuNc g) (fun i => (cuSorted g i).2) n out) :
    ∃ e : Fin n ≃ Fin (cellAverage g B).n, ∀ s : Fin n,
      (out s.val).1 = (cellAverage g B).pts (e s) ∧ (out s.val).2 = (cellAverage g B).batch (e s) := by
  obtain ⟨f, hf⟩ := C61_regular_cells g hn hv hcs heps Wc Ws Wa hWc hWs hWa n out h
  obtain ⟨f', hf'⟩ := C29_cell_average g B hv hcs heps
  have hf2 : IsGroupMeans (fun i j => g.c.batch i = g.c.batch j ∧
        SameCell g.eps g.c g.cs (g.c.batch i) (g.c.pts i) (g.c.pts j))
      g.c.pts g.c.batch (cellAverage g B).pts (fun s => ((cellAverage g B).batch s : ℤ)) f' :=
    ⟨hf'.surj, hf'.cells, hf'.mean, fun i => by rw [hf'.batch]⟩
  exact hf.unique hf2

/-- **C61.** The op always has a run. -/
theorem C61_run_exists {D : ℕ} (N Wc Ws Wa : ℕ) (keys : ℕ → ℤ) (nc : Fin D → ℤ) (pts : ℕ → Fin D → K) :
    ∃ n out, AvgRun N Wc Ws Wa keys nc pts n out := by
  obtain ⟨n, h1⟩ := exists_countKeys N 128 Wc keys
  obtain ⟨m, h2⟩ := exists_compact (isFirstKey keys) N (launchThreads N Ws)
  exact ⟨n, _, m, _, h1, h2, Interleave.exists_seq _, rfl⟩

/-! ## the hypotheses can be met -/

/-- Exact neighbour lists exist for every grid. -/
def nbSpec {D : ℕ} (g : Grid D K) (rad : Fin D → K) (i : ℕ) : List ℕ :=
  (List.range g.c.n).filter (fun j => decide ((cuSorted g j).1 = (cuSorted g i).1 ∧
    ∑ d, (((cuSorted g i).2 d - (cuSorted g j).2 d) / rad d) ^ 2 < 1))

theorem nbExact_nbSpec {D : ℕ} (g : Grid D K) (rad : Fin D → K) : NbExact g rad (nbSpec g rad) := by
  intro i hi j
  unfold nbSpec
  rw [List.mem_filter, List.mem_range, decide_eq_true_eq]
  constructor
  · rintro ⟨hj, h⟩
    rw [cuSorted, cuSorted, dif_pos hi, dif_pos hj] at h
    exact ⟨hj, h⟩
  · rintro ⟨hj, h⟩
    refine ⟨hj, ?_⟩
    rw [cuSorted, cuSorted, dif_pos hi, dif_pos hj]
    exact h

/-- Three points of one element, the first two close to each other but in different
cells, and one point of another element at the same place as the first. -/
abbrev exPd : Grid 2 ℚ :=
  ⟨⟨4, ![![0, 0], ![3/4, 3/4], ![5, 0], ![0, 0]], ![0, 0, 0, 1], 2⟩, ![1, 1], 1/2⟩

example : 0 < exPd.c.n ∧ exPd.c.Valid ∧ (∀ d, 0 < exPd.cs d) ∧ 0 < exPd.eps ∧
    (∃ n out, PdRun exPd.c.n 3 3 3 3 (cuSortedKeys exPd) (cuNc exPd) (nbSpec exPd ![1, 1]) n out) ∧
    NbExact exPd ![1, 1] (nbSpec exPd ![1, 1]) ∧
    (∃ n out, AvgRun exPd.c.n 3 3 3 (cuSortedKeys exPd) (cuNc exPd) (fun i => (cuSorted exPd i).2) n out) := by
  refine ⟨by decide, by decide, by decide +kernel, by decide +kernel, C60_run_exists _ _ _ _ _ _ _ _,
    nbExact_nbSpec _ _, C61_run_exists _ _ _ _ _ _ _⟩

end PC
