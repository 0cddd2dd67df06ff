import Verif.Props.Nets2

/-!
# Property C164: every shape may be moved by a vector of its own
-/

set_option linter.unusedVariables false
set_option linter.unusedSectionVars false

namespace PC

section
variable {K : Type*} [Field K] [LinearOrder K] [IsStrictOrderedRing K] [FloorRing K] {k D : ℕ}

/-- Specification: the cloud whose batch element `b` is moved by the vector `t b`. -/
def Cloud.moveEach (c : Cloud (Fin D → K)) (t : ℕ → Fin D → K) : Cloud (Fin D → K) :=
  { c with pts := fun i d => c.pts i d + t (c.batch i) d }

theorem segMin_move {n : ℕ} (x y : Fin n → K) (ids : Fin n → ℕ) (s : ℕ) (a : K) (h : ∀ i, ids i = s → y i = x i + a) :
    segMin y ids s = (segMin x ids s).map (· + a) := by
  cases e : segMin x ids s with
  | none =>
    rw [segMin_eq_none] at e
    exact segMin_eq_none.2 e
  | some v =>
    obtain ⟨⟨i, hi, hv⟩, hle⟩ := segMin_eq_some.1 e
    refine segMin_eq_some.2 ⟨⟨i, hi, by rw [h i hi, hv]⟩, fun j hj => ?_⟩
    rw [h j hj]
    have := hle j hj
    linarith

theorem segMax_move {n : ℕ} (x y : Fin n → K) (ids : Fin n → ℕ) (s : ℕ) (a : K) (h : ∀ i, ids i = s → y i = x i + a) :
    segMax y ids s = (segMax x ids s).map (· + a) := by
  cases e : segMax x ids s with
  | none =>
    rw [segMax_eq_none] at e
    exact segMax_eq_none.2 e
  | some v =>
    obtain ⟨⟨i, hi, hv⟩, hle⟩ := segMax_eq_some.1 e
    refine segMax_eq_some.2 ⟨⟨i, hi, by rw [h i hi, hv]⟩, fun j hj => ?_⟩
    rw [h j hj]
    have := hle j hj
    linarith

theorem aabbMin_move (eps : K) (c : Cloud (Fin D → K)) (t : ℕ → Fin D → K) (b : ℕ) (d : Fin D) :
    aabbMin eps (c.moveEach t) b d = (aabbMin eps c b d).map (· + t b d) := by
  have h := segMin_move (fun i => c.pts i d) (fun i => c.pts i d + t (c.batch i) d) c.batch b (t b d)
    (fun i hi => by subst hi; rfl)
  show (segMin (fun i => c.pts i d + t (c.batch i) d) c.batch b).map _ = _
  unfold aabbMin
  rw [h]
  cases segMin (fun i => c.pts i d) c.batch b with
  | none => rfl
  | some v => simp only [Option.map_some, Option.some.injEq]; ring

theorem aabbMax_move (eps : K) (c : Cloud (Fin D → K)) (t : ℕ → Fin D → K) (b : ℕ) (d : Fin D) :
    aabbMax eps (c.moveEach t) b d = (aabbMax eps c b d).map (· + t b d) := by
  have h := segMax_move (fun i => c.pts i d) (fun i => c.pts i d + t (c.batch i) d) c.batch b (t b d)
    (fun i hi => by subst hi; rfl)
  show (segMax (fun i => c.pts i d + t (c.batch i) d) c.batch b).map _ = _
  unfold aabbMax
  rw [h]
  cases segMax (fun i => c.pts i d) c.batch b with
  | none => rfl
  | some v => simp only [Option.map_some, Option.some.injEq]; ring

theorem clampCell_move (lo : Option K) (p size a : K) (hi : ℕ) :
    Grid.clampCell (lo.map (· + a)) (p + a) size hi = Grid.clampCell lo p size hi := by
  cases lo with
  | none => rfl
  | some v =>
    show min (⌊(p + a - (v + a)) / size⌋.toNat) hi = min (⌊(p - v) / size⌋.toNat) hi
    rw [add_sub_add_right_eq_sub]

/-! ### Grids and neighbour search -/

def Grid.moveEach (g : Grid D K) (t : ℕ → Fin D → K) : Grid D K := { g with c := g.c.moveEach t }

theorem numCells_move (g : Grid D K) (t : ℕ → Fin D → K) : (g.moveEach t).numCells = g.numCells := by
  funext d
  unfold Grid.numCells
  congr 2
  funext b
  unfold Grid.batchNumCells
  show (match aabbMin g.eps (g.c.moveEach t) b d, aabbMax g.eps (g.c.moveEach t) b d with
    | some lo, some hi => ⌈(hi - lo) / g.cs d⌉.toNat
    | _, _ => 0) = _
  rw [aabbMin_move, aabbMax_move]
  cases aabbMin g.eps g.c b d with
  | none => rfl
  | some lo =>
    cases aabbMax g.eps g.c b d with
    | none => rfl
    | some hi =>
      show ⌈(hi + t b d - (lo + t b d)) / g.cs d⌉.toNat = ⌈(hi - lo) / g.cs d⌉.toNat
      rw [add_sub_add_right_eq_sub]

theorem key_move (g : Grid D K) (t : ℕ → Fin D → K) : (g.moveEach t).key = g.key := by
  funext i
  unfold Grid.key
  rw [numCells_move]
  show cellKey g.numCells (g.c.batch i) _ = _
  congr 1
  funext d
  unfold Grid.cell
  rw [numCells_move]
  show Grid.clampCell (aabbMin g.eps (g.c.moveEach t) (g.c.batch i) d) (g.c.pts i d + t (g.c.batch i) d) (g.cs d) _ = _
  rw [aabbMin_move, clampCell_move]

theorem perm_move (g : Grid D K) (t : ℕ → Fin D → K) : (g.moveEach t).perm = g.perm := by
  unfold Grid.perm
  rw [key_move]
  rfl

theorem sortedKey_move (g : Grid D K) (t : ℕ → Fin D → K) : (g.moveEach t).sortedKey = g.sortedKey := by
  funext i
  unfold Grid.sortedKey
  rw [key_move, perm_move]
  rfl

theorem sortedBatch_move (g : Grid D K) (t : ℕ → Fin D → K) : (g.moveEach t).sortedBatch = g.sortedBatch := by
  funext i
  unfold Grid.sortedBatch
  rw [perm_move]
  rfl

theorem sortedPts_move (g : Grid D K) (t : ℕ → Fin D → K) (q : Fin g.c.n) :
    (g.moveEach t).sortedPts q = fun d => g.sortedPts q d + t (g.sortedBatch q) d := by
  unfold Grid.sortedPts Grid.sortedBatch
  rw [perm_move]
  rfl

theorem sortedCloud_move (g : Grid (k + 2) K) (t : ℕ → Fin (k + 2) → K) :
    (g.moveEach t).sortedCloud = g.sortedCloud.moveEach t := by
  have h1 := sortedBatch_move g t
  have h2 : (g.moveEach t).sortedPts = fun q d => g.sortedPts q d + t (g.sortedBatch q) d :=
    funext (fun q => sortedPts_move g t q)
  show (⟨g.c.n, (g.moveEach t).sortedPts, (g.moveEach t).sortedBatch, g.c.B⟩ : Cloud (Fin (k + 2) → K)) = _
  rw [h1, h2]
  rfl

theorem getDS_move (dev : Device) (g : Grid (k + 2) K) (t : ℕ → Fin (k + 2) → K) :
    (g.moveEach t).getDS dev = g.getDS dev := by
  unfold Grid.getDS
  rw [sortedKey_move, numCells_move]
  rfl

theorem adjRange_move (dev : Device) (g : Grid (k + 2) K) (t : ℕ → Fin (k + 2) → K) (ds : ℕ → ℕ → ℕ → ℕ × ℕ)
    (p : Fin (k + 2) → K) (b : ℕ) (radii : Fin (k + 2) → K) :
    adjRange dev (g.moveEach t) ds (fun d => p d + t b d) b radii = adjRange dev g ds p b radii := by
  unfold adjRange
  rw [numCells_move]
  have h : ∀ d : Fin (k + 2), aabbMin (g.moveEach t).eps (g.moveEach t).c b d = (aabbMin g.eps g.c b d).map (· + t b d) :=
    fun d => aabbMin_move g.eps g.c t b d
  rw [h, h, clampCell_move, clampCell_move]

theorem neighborsOf_move (dev : Device) (g : Grid (k + 2) K) (t : ℕ → Fin (k + 2) → K) (ds : ℕ → ℕ → ℕ → ℕ × ℕ)
    (p : Fin (k + 2) → K) (b : ℕ) (radii : Fin (k + 2) → K) :
    neighborsOf dev (g.moveEach t) ds (fun d => p d + t b d) b radii = neighborsOf dev g ds p b radii := by
  unfold neighborsOf
  rw [adjRange_move, sortedBatch_move]
  show (if b < g.c.B then _ else _) = _
  congr 1
  cases adjRange dev g ds p b radii with
  | error e => rfl
  | ok x =>
    obtain ⟨s, e⟩ := x
    show Except.ok ((List.finRange g.c.n).filter _) = Except.ok ((List.finRange g.c.n).filter _)
    congr 1
    apply List.filter_congr
    intro q _
    rw [decide_eq_decide]
    have hq : g.sortedBatch q = b → (fun d => (g.moveEach t).sortedPts q d - (p d + t b d)) =
        fun d => g.sortedPts q d - p d := by
      intro hb
      funext d
      rw [sortedPts_move, hb, add_sub_add_right_eq_sub]
    constructor
    · rintro ⟨h1, h2, h3, h4⟩
      exact ⟨h1, h2, by rw [← hq h4]; exact h3, h4⟩
    · rintro ⟨h1, h2, h3, h4⟩
      exact ⟨h1, h2, by rw [hq h4]; exact h3, h4⟩

/-- **C164, search**: the neighbour lists are the same, pair by pair. -/
theorem C164_neighbors (dev : Device) (g : Grid (k + 2) K) (t : ℕ → Fin (k + 2) → K) (ctr : Cloud (Fin (k + 2) → K))
    (radii : Fin (k + 2) → K) :
    findNeighbors dev (g.moveEach t) (ctr.moveEach t) radii = findNeighbors dev g ctr radii := by
  have h : ∀ ds, (fun i => neighborsOf dev (g.moveEach t) ds ((ctr.moveEach t).pts i) ((ctr.moveEach t).batch i) radii) =
      fun i => neighborsOf dev g ds (ctr.pts i) (ctr.batch i) radii := fun ds => by
    funext i
    exact neighborsOf_move dev g t ds (ctr.pts i) (ctr.batch i) radii
  unfold findNeighbors
  rw [getDS_move]
  simp only [h]
  cases g.getDS dev with
  | error e => rfl
  | ok ds =>
    dsimp only [Cloud.moveEach, Grid.moveEach]
    by_cases hn : ctr.n = 0
    · exact (if_pos hn).trans (if_pos hn).symm
    · refine (if_neg hn).trans (Eq.trans ?_ (if_neg hn).symm)
      cases collect (List.map (fun i => neighborsOf dev g ds (ctr.pts i) (ctr.batch i) radii) (List.finRange ctr.n)) <;> rfl

/-- The neighbourhood between moved clouds, with the same pairs. -/
def Nbh.moveEach (h : Nbh k K) (t : ℕ → Fin (k + 2) → K) : Nbh k K :=
  ⟨h.g.moveEach t, h.radii, h.sample.moveEach t, h.equalSamples, h.nb⟩

theorem nbhNew_none (dev : Device) (g : Grid (k + 2) K) (radii : Fin (k + 2) → K) :
    Nbh.new dev g radii none = (Nbh.new dev g radii (some g.sortedCloud)).map
      (fun h => ⟨h.g, h.radii, h.sample, true, h.nb⟩) := by
  unfold Nbh.new
  dsimp only
  cases findNeighbors dev g g.sortedCloud radii <;> rfl

theorem nbhNew_move_some (dev : Device) (g : Grid (k + 2) K) (t : ℕ → Fin (k + 2) → K) (radii : Fin (k + 2) → K)
    (s : Cloud (Fin (k + 2) → K)) :
    Nbh.new dev (g.moveEach t) radii (some (s.moveEach t)) = (Nbh.new dev g radii (some s)).map (·.moveEach t) := by
  have e := C164_neighbors dev g t s radii
  unfold Nbh.new
  dsimp only
  cases hf : findNeighbors dev g s radii with
  | error x => rw [hf] at e; rw [e]; rfl
  | ok nb => rw [hf] at e; rw [e]; rfl

theorem nbhNew_move_none (dev : Device) (g : Grid (k + 2) K) (t : ℕ → Fin (k + 2) → K) (radii : Fin (k + 2) → K) :
    Nbh.new dev (g.moveEach t) radii none = (Nbh.new dev g radii none).map (·.moveEach t) := by
  rw [nbhNew_none, nbhNew_none, sortedCloud_move, nbhNew_move_some]
  cases Nbh.new dev g radii (some g.sortedCloud) <;> rfl

theorem new_batch {dev : Device} {g : Grid (k + 2) K} {radii : Fin (k + 2) → K}
    {s : Option (Cloud (Fin (k + 2) → K))} {h : Nbh k K} (hnew : Nbh.new dev g radii s = .ok h) :
    ∀ p ∈ h.nb.pairs, h.g.sortedBatch p.1 = h.sample.batch p.2 := fun p hp =>
  ((C16_search_sound dev h.g h.sample h.radii h.nb (new_pairs hnew).2.2.2.2).1 p.1 p.2 hp).1

/-! ### Densities and layers -/

theorem pairKernel_move (ker : K → K) (bw radii p q a : Fin D → K) :
    pairKernel ker bw radii (fun d => p d + a d) (fun d => q d + a d) = pairKernel ker bw radii p q := by
  unfold pairKernel
  apply Finset.prod_congr rfl
  intro d _
  congr 1
  rw [← sub_div, ← sub_div, add_sub_add_right_eq_sub]

theorem pdfOfPairs_move {n m : ℕ} (ker : K → K) (pts pts' : Fin n → Fin D → K) (bw radii : Fin D → K) (mode : KDEMode)
    (pairs : List (Fin n × Fin m)) (a : Fin n → Fin D → K) (hp : ∀ i d, pts' i d = pts i d + a i d)
    (hm : ∀ p ∈ pairs, ∃ h : p.2.val < n, a ⟨p.2.val, h⟩ = a p.1) (i : Fin n) :
    pdfOfPairs ker pts' bw radii mode pairs i = pdfOfPairs ker pts bw radii mode pairs i := by
  unfold pdfOfPairs
  congr 2
  apply List.map_congr_left
  intro p hpm
  obtain ⟨h, ha⟩ := hm p (List.mem_of_mem_filter hpm)
  unfold gatherPt
  rw [dif_pos h, dif_pos h, ← pairKernel_move ker bw radii (pts p.1) (pts ⟨p.2.val, h⟩) (a p.1)]
  congr 1
  · funext d; exact hp _ _
  · funext d; rw [hp, ha]

/-- Densities within a self neighbourhood. -/
theorem pdfSorted_move {dev : Device} {g : Grid (k + 2) K} {radii : Fin (k + 2) → K} {h : Nbh k K}
    (hnew : Nbh.new dev g radii none = .ok h) (t : ℕ → Fin (k + 2) → K) (ker : K → K) (bw : Fin (k + 2) → K)
    (mode : KDEMode) (i : Fin h.g.c.n) :
    (h.moveEach t).pdfSorted ker bw mode i = h.pdfSorted ker bw mode i := by
  have hb := new_batch hnew
  obtain ⟨_, _, e3, _⟩ := new_pairs hnew
  have e1 := (new_pairs hnew).1
  unfold Nbh.pdfSorted
  refine pdfOfPairs_move ker h.g.sortedPts (h.g.moveEach t).sortedPts bw h.radii mode h.nb.pairs
    (fun q => t (h.g.sortedBatch q)) (fun q d => congrFun (sortedPts_move h.g t q) d) ?_ i
  intro p hp
  have hbp := hb p hp
  obtain ⟨q, j⟩ := p
  have e3' : h.sample = h.g.sortedCloud := by rw [e3, e1]; rfl
  have hj : j.val < h.g.c.n := lt_of_lt_of_eq j.isLt (show h.sample.n = h.g.sortedCloud.n by rw [e3'])
  refine ⟨hj, ?_⟩
  dsimp only at hbp ⊢
  rw [hbp]
  congr 1
  have : ∀ (c : Cloud (Fin (k + 2) → K)) (e : c = h.g.sortedCloud) (j : Fin c.n) (hj : j.val < h.g.c.n),
      h.g.sortedBatch ⟨j.val, hj⟩ = c.batch j := by
    intro c e j hj
    subst e
    rfl
  exact this _ e3' j hj

theorem rawPdf_move {dev dev' : Device} {g : Grid (k + 2) K} {radii : Fin (k + 2) → K} {s : Option (Cloud (Fin (k + 2) → K))}
    {h : Nbh k K} (hnew : Nbh.new dev g radii s = .ok h) (t : ℕ → Fin (k + 2) → K) (ker : K → K) (bw : Fin (k + 2) → K)
    (mode : KDEMode) : (h.moveEach t).rawPdf ker dev' bw mode = h.rawPdf ker dev' bw mode := by
  unfold Nbh.rawPdf
  by_cases hm : mode = .noPdf
  · rw [if_pos hm, if_pos hm]
    rfl
  rw [if_neg hm, if_neg hm]
  show (if h.equalSamples = true then _ else _) = _
  by_cases he : h.equalSamples = true
  · rw [if_pos he, if_pos he]
    congr 1
    have hs : s = none := by
      have := (new_pairs hnew).2.2.2.1
      rw [he] at this
      cases s with
      | none => rfl
      | some s => cases this
    subst hs
    show h.nb.pairs.map _ = h.nb.pairs.map _
    apply List.map_congr_left
    intro p _
    exact pdfSorted_move hnew t ker bw mode p.1
  · rw [if_neg he, if_neg he]
    have := nbhNew_move_none dev' h.g t h.radii
    show (match Nbh.new dev' (h.g.moveEach t) h.radii none with | .error e => _ | .ok self => _) = _
    rw [this]
    cases hself : Nbh.new dev' h.g h.radii none with
    | error e => rfl
    | ok self =>
      show Except.ok (h.nb.pairs.map _) = Except.ok (h.nb.pairs.map _)
      congr 1
      apply List.map_congr_left
      intro p _
      by_cases hp : p.1.val < self.g.c.n
      · refine (dif_pos hp).trans (Eq.trans ?_ (dif_pos hp).symm)
        exact pdfSorted_move hself t ker bw mode _
      · refine (dif_neg hp).trans ?_
        rw [dif_neg hp]

/-- **C164, densities**: every request for densities is answered alike. -/
theorem C164_density {dev dev' : Device} {g : Grid (k + 2) K} {radii : Fin (k + 2) → K}
    {s : Option (Cloud (Fin (k + 2) → K))} {h : Nbh k K} (hnew : Nbh.new dev g radii s = .ok h)
    (t : ℕ → Fin (k + 2) → K) (ker : K → K) (p : Option (List K)) (a : PdfArgs k K) :
    (h.moveEach t).runGet ker dev' p a = h.runGet ker dev' p a := by
  have e : (h.moveEach t).computePdf ker dev' a.bw a.mode a.normalize = h.computePdf ker dev' a.bw a.mode a.normalize := by
    unfold Nbh.computePdf
    rw [rawPdf_move hnew]
    rfl
  unfold Nbh.runGet
  rw [e]

theorem originalNeighIds_move (h : Nbh k K) (t : ℕ → Fin (k + 2) → K) :
    (h.moveEach t).originalNeighIds = h.originalNeighIds := by
  unfold Nbh.originalNeighIds
  show h.nb.pairs.map (fun p => ((h.g.moveEach t).perm p.1, p.2)) = _
  rw [perm_move]
  rfl

/-- Moving both clouds leaves the coordinate differences of the pairs. -/
theorem diffs_move {dev : Device} {eps : K} {cin cout : Cloud (Fin (k + 2) → K)} {radii cs : Fin (k + 2) → K} {h : Nbh k K}
    (hnew : Nbh.new dev ⟨cin, cs, eps⟩ radii (some cout) = .ok h) (t : ℕ → Fin (k + 2) → K)
    (j : Fin h.originalNeighIds.length) :
    h.diffs (cin.moveEach t).pts (cout.moveEach t).pts j = h.diffs cin.pts cout.pts j := by
  funext d
  unfold Nbh.diffs
  have hj : h.originalNeighIds.get j ∈ h.originalNeighIds := List.get_mem _ _
  obtain ⟨e1, _, e3, _⟩ := new_pairs hnew
  have e1c : h.g.c = cin := by rw [e1]
  have e3c : h.sample = cout := e3
  generalize h.originalNeighIds.get j = p at hj
  unfold Nbh.originalNeighIds at hj
  obtain ⟨q, hq, rfl⟩ := List.mem_map.1 hj
  have hb := new_batch hnew q hq
  have h1 : (h.g.perm q.1).val < cin.n := by rw [← e1c]; exact (h.g.perm q.1).isLt
  have h2 : q.2.val < cout.n := by rw [← e3c]; exact q.2.isLt
  have hb' : cin.batch ⟨(h.g.perm q.1).val, h1⟩ = cout.batch ⟨q.2.val, h2⟩ := by
    have k1 : ∀ (c : Cloud (Fin (k + 2) → K)) (e : c = cin) (i : Fin c.n) (hi : i.val < cin.n), cin.batch ⟨i.val, hi⟩ = c.batch i := by
      intro c e i hi
      subst e
      rfl
    have k2 : ∀ (c : Cloud (Fin (k + 2) → K)) (e : c = cout) (i : Fin c.n) (hi : i.val < cout.n), cout.batch ⟨i.val, hi⟩ = c.batch i := by
      intro c e i hi
      subst e
      rfl
    rw [k1 _ e1c _ h1, k2 _ e3c _ h2]
    exact hb
  unfold gatherD
  have h1' : (h.g.perm q.1).val < (cin.moveEach t).n := h1
  have h2' : q.2.val < (cout.moveEach t).n := h2
  rw [dif_pos h1, dif_pos h2, dif_pos h1', dif_pos h2']
  show cin.pts ⟨(h.g.perm q.1).val, h1⟩ d + t (cin.batch ⟨(h.g.perm q.1).val, h1⟩) d -
    (cout.pts ⟨q.2.val, h2⟩ d + t (cout.batch ⟨q.2.val, h2⟩) d) = _
  rw [hb', add_sub_add_right_eq_sub]

theorem layerNbh_move (dev : Device) (eps : K) (cin cout : Cloud (Fin (k + 2) → K)) (radius : K) (t : ℕ → Fin (k + 2) → K) :
    layerNbh dev eps (cin.moveEach t) (cout.moveEach t) radius = (layerNbh dev eps cin cout radius).map (·.moveEach t) :=
  nbhNew_move_some dev ⟨cin, fun _ => radius, eps⟩ t (fun _ => radius) cout

/-- What is computed from the pairs and the coordinate differences does not change. -/
theorem nbh_conv_move {dev : Device} {eps : K} {cin cout : Cloud (Fin (k + 2) → K)} {radii cs : Fin (k + 2) → K} {h : Nbh k K}
    (hnew : Nbh.new dev ⟨cin, cs, eps⟩ radii (some cout) = .ok h) (t : ℕ → Fin (k + 2) → K) {β : Type*}
    (F : (pairs : List (Fin h.g.c.n × Fin h.sample.n)) → (Fin pairs.length → Fin (k + 2) → K) → β) :
    F (h.moveEach t).originalNeighIds ((h.moveEach t).diffs (cin.moveEach t).pts (cout.moveEach t).pts) =
      F h.originalNeighIds (h.diffs cin.pts cout.pts) := by
  have key : ∀ (pairs : List (Fin h.g.c.n × Fin h.sample.n)) (_ : pairs = h.originalNeighIds),
      F pairs (fun j d => gatherD (cin.moveEach t).pts (pairs.get j).1.val d -
        gatherD (cout.moveEach t).pts (pairs.get j).2.val d) = F h.originalNeighIds (h.diffs cin.pts cout.pts) := by
    intro pairs e
    subst e
    congr 1
    funext j
    exact diffs_move hnew t j
  exact key _ (originalNeighIds_move h t)

/-- **C164, MCConv**: the call on clouds whose batch elements are moved, each by
its own vector, returns the same rows or raises the same exception. -/
theorem C164_mcconv (ker act : K → K) (dev : Device) (eps : K) (L : MCLayer K) (cin cout : Cloud (Fin (k + 2) → K))
    (radius bw : K) (f : Fin cin.n → ℕ → K) (t : ℕ → Fin (k + 2) → K) :
    L.call ker act dev eps (cin.moveEach t) (cout.moveEach t) radius bw f = L.call ker act dev eps cin cout radius bw f := by
  unfold MCLayer.call
  rw [layerNbh_move]
  cases hn : layerNbh dev eps cin cout radius with
  | error e => rfl
  | ok h =>
    show (match ((h.moveEach t).runGet ker dev none ⟨fun _ => bw, .constant, false⟩).1 with
      | .error e => _ | .ok pdf => _) = _
    rw [C164_density hn]
    dsimp only
    cases (h.runGet ker dev none ⟨fun _ => bw, .constant, false⟩).1 with
    | error e => rfl
    | ok pdf =>
      refine congrArg Except.ok (funext fun c => funext fun o => ?_)
      by_cases hc : c.val < h.sample.n
      · refine (dif_pos hc).trans (Eq.trans ?_ (dif_pos hc).symm)
        exact nbh_conv_move hn t (fun pairs inp => L.conv act (k + 2) pairs (fun j => rowOf (fun d => inp j d / radius))
          (fun j => pdf.getD j.val 0) f ⟨c.val, hc⟩ o)
      · refine (dif_neg hc).trans ?_
        rw [dif_neg hc]

/-- **C164, PointConv.** -/
theorem C164_pointconv (ker act : K → K) (dev : Device) (eps : K) (L : PCLayer K) (cin cout : Cloud (Fin (k + 2) → K))
    (radius bw : K) (f : Fin cin.n → ℕ → K) (t : ℕ → Fin (k + 2) → K) :
    L.call ker act dev eps (cin.moveEach t) (cout.moveEach t) radius bw f = L.call ker act dev eps cin cout radius bw f := by
  unfold PCLayer.call
  rw [layerNbh_move]
  cases hn : layerNbh dev eps cin cout radius with
  | error e => rfl
  | ok h =>
    show (match ((h.moveEach t).runGet ker dev none ⟨fun _ => bw, .constant, false⟩).1 with
      | .error e => _ | .ok pdf => _) = _
    rw [C164_density hn]
    dsimp only
    cases (h.runGet ker dev none ⟨fun _ => bw, .constant, false⟩).1 with
    | error e => rfl
    | ok pdf =>
      refine congrArg Except.ok (funext fun c => funext fun o => ?_)
      by_cases hc : c.val < h.sample.n
      · refine (dif_pos hc).trans (Eq.trans ?_ (dif_pos hc).symm)
        exact nbh_conv_move hn t (fun pairs inp => L.conv act (k + 2) pairs (fun j => rowOf (fun d => inp j d))
          (fun j => pdf.getD j.val 0) f ⟨c.val, hc⟩ o)
      · refine (dif_neg hc).trans ?_
        rw [dif_neg hc]

/-- **C164, KPConv**, rigid or deformable. -/
theorem C164_kpconv (dev : Device) (eps : ℝ) (L : KPLayer (k + 2)) (cin cout : Cloud (Fin (k + 2) → ℝ))
    (radius : ℝ) (influence : Option ℝ) (f : Fin cin.n → ℕ → ℝ) (t : ℕ → Fin (k + 2) → ℝ) :
    L.call dev eps (cin.moveEach t) (cout.moveEach t) radius influence f = L.call dev eps cin cout radius influence f := by
  unfold KPLayer.call
  rw [layerNbh_move]
  cases hn : layerNbh dev eps cin cout radius with
  | error e => rfl
  | ok h =>
    exact nbh_conv_move hn t (fun pairs inp => L.conv (kpSigma influence radius) pairs (fun j d => inp j d / radius) f)

/-- **C164, local pooling.** -/
theorem C164_local_pooling (op : PoolOp) (dev : Device) (eps : K) (cin cout : Cloud (Fin (k + 2) → K))
    (radius : RadiusArg K) (f : Fin cin.n → ℕ → K) (t : ℕ → Fin (k + 2) → K) :
    localPool op dev eps (cin.moveEach t) (cout.moveEach t) radius f = localPool op dev eps cin cout radius f := by
  unfold localPool
  cases poolRadius (k + 2) radius with
  | error e => rfl
  | ok radii =>
    have e := nbhNew_move_some dev ⟨cin, radii, eps⟩ t radii cout
    dsimp only
    show (match Nbh.new dev (Grid.moveEach ⟨cin, radii, eps⟩ t) radii (some (cout.moveEach t)) with
      | .error e => _ | .ok h => _) = _
    rw [e]
    cases hn : Nbh.new dev ⟨cin, radii, eps⟩ radii (some cout) with
    | error e => rfl
    | ok h =>
      refine congrArg Except.ok (funext fun c => funext fun ch => ?_)
      exact nbh_conv_move hn t (fun pairs _ => op.apply (fun j : Fin pairs.length => gatherD f (pairs.get j).1.val ch)
        (fun j => (pairs.get j).2.val) c.val)

/-! ### Sampling -/

theorem segment_move (g : Grid D K) (t : ℕ → Fin D → K) : (g.moveEach t).segment = g.segment := by
  funext q
  unfold Grid.segment Grid.keyList
  rw [sortedKey_move]
  rfl

theorem segment_facts (g : Grid D K) (hv : g.c.Valid) (hcs : ∀ d, 0 < g.cs d) (heps : 0 < g.eps) :
    (∀ q q' : Fin g.c.n, g.segment q = g.segment q' → g.sortedBatch q = g.sortedBatch q') ∧
    ∀ s < (uniqueWithCounts g.keyList).length, ∃ q : Fin g.c.n, g.segment q = s := by
  have hlen : g.keyList.length = g.c.n := by simp [Grid.keyList]
  have hsorted : g.keyList.Pairwise (· ≥ ·) := by
    unfold Grid.keyList
    rw [List.pairwise_ofFn]
    intro i j hij
    exact sortedKey_antitone g hij.le
  obtain ⟨s1, s2, s3, s4⟩ := newKeys_spec g.keyList hsorted
  have hget : ∀ q : Fin g.c.n, g.keyList.getD q.val 0 = g.sortedKey q := by
    intro q
    rw [List.getD_eq_getElem?_getD, List.getElem?_eq_getElem (by rw [hlen]; exact q.isLt)]
    simp [Grid.keyList]
  refine ⟨?_, ?_⟩
  · intro q q' e
    unfold Grid.segment at e
    rw [s2 q.val q'.val (by rw [hlen]; exact q.isLt) (by rw [hlen]; exact q'.isLt), hget, hget] at e
    exact (((C13_keys_identify g hv hcs heps).1 _ _).1 e).1
  · intro s hs
    obtain ⟨i, hi, he⟩ := s4 s hs
    rw [hlen] at hi
    exact ⟨⟨i, hi⟩, he⟩

/-- `cellAverage` of the sorted keys, segments, points and batch ids. -/
def averageOf {N : ℕ} (keys : List ℕ) (seg : Fin N → ℕ) (pts : Fin N → Fin D → K) (batch : Fin N → ℕ) (B : ℕ) :
    Cloud (Fin D → K) where
  n := (uniqueWithCounts keys).length
  pts s := fun d => segMean (fun q => pts q d) seg s.val
  batch s := match segMin (fun q : Fin N => q.val) seg s.val with
    | some q => if hq : q < N then batch ⟨q, hq⟩ else 0
    | none => 0
  B := B

theorem averageOf_move {N : ℕ} (keys : List ℕ) (seg : Fin N → ℕ) (pts pts' : Fin N → Fin D → K) (batch : Fin N → ℕ) (B : ℕ)
    (t : ℕ → Fin D → K) (h1 : ∀ q q', seg q = seg q' → batch q = batch q')
    (h2 : ∀ s < (uniqueWithCounts keys).length, ∃ q, seg q = s) (hp : pts' = fun q d => pts q d + t (batch q) d) :
    averageOf keys seg pts' batch B = (averageOf keys seg pts batch B).moveEach t := by
  subst hp
  show (⟨_, _, _, _⟩ : Cloud (Fin D → K)) = ⟨_, _, _, _⟩
  congr 1
  funext s d
  obtain ⟨q0, hq0⟩ := h2 s.val s.isLt
  have hne : (segRows seg s.val).card ≠ 0 := by
    rw [Finset.card_ne_zero]
    exact ⟨q0, by rw [mem_segRows]; exact hq0⟩
  show _ = segMean (fun q => pts q d) seg s.val + t (match segMin (fun q : Fin N => q.val) seg s.val with
    | some q => if hq : q < N then batch ⟨q, hq⟩ else 0
    | none => 0) d
  cases hm : segMin (fun q : Fin N => q.val) seg s.val with
  | none =>
    rw [segMin_eq_none] at hm
    exact absurd hq0 (hm q0)
  | some q =>
    obtain ⟨⟨i, hi, hiq⟩, _⟩ := segMin_eq_some.1 hm
    subst hiq
    dsimp only
    rw [dif_pos i.isLt]
    unfold segMean
    have hmax : max (segRows seg s.val).card 1 = (segRows seg s.val).card := max_eq_left (by omega)
    rw [hmax]
    have hc : ((segRows seg s.val).card : K) ≠ 0 := Nat.cast_ne_zero.2 hne
    rw [eq_comm, div_add' _ _ _ hc]
    congr 1
    rw [mul_comm, ← nsmul_eq_mul, ← Finset.sum_const, ← Finset.sum_add_distrib]
    apply Finset.sum_congr rfl
    intro q hq
    rw [mem_segRows] at hq
    show pts q d + t (batch i) d = pts q d + t (batch q) d
    rw [h1 q i (hq.trans hi.symm)]

/-- **C164, cell averages**: the samples of an element are moved by the vector of
the element. -/
theorem C164_cell_average (g : Grid D K) (t : ℕ → Fin D → K) (B : ℕ) (hv : g.c.Valid) (hcs : ∀ d, 0 < g.cs d)
    (heps : 0 < g.eps) : cellAverage (g.moveEach t) B = (cellAverage g B).moveEach t := by
  obtain ⟨h1, h2⟩ := segment_facts g hv hcs heps
  have hk : (g.moveEach t).keyList = g.keyList := by
    unfold Grid.keyList
    rw [sortedKey_move]
    rfl
  show averageOf (g.moveEach t).keyList (g.moveEach t).segment (g.moveEach t).sortedPts (g.moveEach t).sortedBatch B =
    (averageOf g.keyList g.segment g.sortedPts g.sortedBatch B).moveEach t
  rw [hk, segment_move, sortedBatch_move]
  exact averageOf_move _ _ _ _ _ _ t h1 h2 (funext (sortedPts_move g t))

theorem slice_move (h : Nbh k K) (t : ℕ → Fin (k + 2) → K) (c : ℕ) : (h.moveEach t).slice c = h.slice c := rfl

/-- **C164, Poisson disk sampling**: the possible selections are the same. -/
theorem C164_poisson (h : Nbh k K) (t : ℕ → Fin (k + 2) → K) (out : List (Fin h.g.c.n)) :
    (PoissonResult (h.moveEach t) out ↔ PoissonResult h out) ∧
    (poissonSample (h.moveEach t) out).1 = (poissonSample h out).1.moveEach t ∧
    (poissonSample (h.moveEach t) out).2 = (poissonSample h out).2 := by
  have hst1 : ∀ s s' : PState (h.moveEach t), PoissonStep (h.moveEach t) s s' → PoissonStep h s s' := by
    intro s s' hs
    cases hs with
    | step alive out c hc => exact PoissonStep.step (h := h) alive out c hc
  have hst2 : ∀ s s' : PState h, PoissonStep h s s' → PoissonStep (h.moveEach t) s s' := by
    intro s s' hs
    cases hs with
    | step alive out c hc => exact PoissonStep.step (h := h.moveEach t) alive out c hc
  refine ⟨?_, ?_, ?_⟩
  · have : PoissonStep (h.moveEach t) = PoissonStep h := funext fun s => funext fun s' => propext ⟨hst1 s s', hst2 s s'⟩
    unfold PoissonResult PoissonReach
    rw [this]
    rfl
  · show (⟨out.length, fun i => (h.g.moveEach t).sortedPts (out.get i), fun i => (h.g.moveEach t).sortedBatch (out.get i),
      h.sample.B⟩ : Cloud (Fin (k + 2) → K)) = _
    rw [sortedBatch_move]
    have : (h.g.moveEach t).sortedPts = fun q d => h.g.sortedPts q d + t (h.g.sortedBatch q) d :=
      funext (sortedPts_move h.g t)
    rw [this]
    rfl
  · show out.map (h.g.moveEach t).perm = out.map h.g.perm
    rw [perm_move]
    rfl

/-! ### Hierarchies -/

/-- The object of the moved cloud. -/
def CloudObj.moveEach (o : CloudObj (Fin D → K)) (t : ℕ → Fin D → K) : CloudObj (Fin D → K) := { o with c := o.c.moveEach t }

theorem Cloud.moveEach_back (c : Cloud (Fin D → K)) (t : ℕ → Fin D → K) : (c.moveEach t).moveEach (-t) = c := by
  obtain ⟨n, pts, batch, B⟩ := c
  unfold Cloud.moveEach
  simp only [Pi.neg_apply, add_neg_cancel_right]

theorem CloudObj.moveEach_back (o : CloudObj (Fin D → K)) (t : ℕ → Fin D → K) : (o.moveEach t).moveEach (-t) = o := by
  obtain ⟨c, _, _, _, _⟩ := o
  unfold CloudObj.moveEach
  dsimp only
  rw [Cloud.moveEach_back]

theorem setBatchShape_move (o : CloudObj (Fin D → K)) (t : ℕ → Fin D → K) (bs : Option (List ℕ)) :
    (o.moveEach t).setBatchShape bs = ((o.setBatchShape bs).1, (o.setBatchShape bs).2.moveEach t) := by
  obtain ⟨c, sz, b, sg, u⟩ := o
  cases bs with
  | none => rfl
  | some sh =>
    have key : ∀ c' : Cloud (Fin D → K), c'.B = c.B → CloudObj.setBatchShape ⟨c', sz, b, sg, u⟩ (some sh) =
        if sh.prod = c.B then
          match sz with
          | none => (.ok (), ⟨c', none, some sh, some sh, u⟩)
          | some x => if sh.prod = x.2.length then (.ok (), ⟨c', some (sh, x.2), some sh, some sh, u⟩)
            else (.error .invalidArgument, ⟨c', sz, some sh, some sh, u⟩)
        else (.error .invalidArgument, ⟨c', sz, b, sg, u⟩) := by
      intro c' e
      unfold CloudObj.setBatchShape
      dsimp only
      rw [e]
      cases sz <;> rfl
    have h1 := key (c.moveEach t) rfl
    rw [show (⟨c, sz, b, sg, u⟩ : CloudObj (Fin D → K)).moveEach t = ⟨c.moveEach t, sz, b, sg, u⟩ from rfl, h1, key c rfl]
    by_cases hB : sh.prod = c.B
    · rw [if_pos hB, if_pos hB]
      cases sz with
      | none => rfl
      | some x =>
        dsimp only
        by_cases hs : sh.prod = x.2.length
        · rw [if_pos hs, if_pos hs]; rfl
        · rw [if_neg hs, if_neg hs]; rfl
    · rw [if_neg hB, if_neg hB]
      rfl

theorem sampleResult_move {h : Nbh k K} (hv : h.g.c.Valid) (hcs : ∀ d, 0 < h.g.cs d) (heps : 0 < h.g.eps)
    {lower : String → String} {mode : String} {r : Except Err (Cloud (Fin (k + 2) → K))} (t : ℕ → Fin (k + 2) → K)
    (hr : SampleResult h lower mode r) : SampleResult (h.moveEach t) lower mode (r.map (·.moveEach t)) := by
  unfold SampleResult at hr ⊢
  split at hr
  · subst hr
    rfl
  · obtain ⟨c, hc, rfl⟩ := hr
    refine ⟨c.moveEach t, ?_, rfl⟩
    cases hc with
    | poisson out ho =>
      rw [← (C164_poisson h t out).2.1]
      exact SamplingResult.poisson (h := h.moveEach t) out ((C164_poisson h t out).1.2 ho)
    | average =>
      rw [← C164_cell_average h.g t h.sample.B hv hcs heps]
      exact SamplingResult.average (h := h.moveEach t)

/-- A level of the hierarchy of the moved cloud. -/
def moveLevel (t : ℕ → Fin (k + 2) → K) (x : CloudObj (Fin (k + 2) → K) × (Fin (k + 2) → K) × Nbh k K) :
    CloudObj (Fin (k + 2) → K) × (Fin (k + 2) → K) × Nbh k K := (x.1.moveEach t, x.2.1, x.2.2.moveEach t)

/-- The cell sizes of one level are positive. -/
def PosSizes (k : ℕ) (a : Arg K) : Prop := ∀ l, completeCellSizes (k + 2) a = .ok l → ∀ d : Fin (k + 2), 0 < vecOf l d

theorem levelStep_move {dev : Device} {eps : K} (heps : 0 < eps) {lower : String → String} {mode : String}
    {bs : Option (List ℕ)} {o : CloudObj (Fin (k + 2) → K)} (hv : o.c.Valid) {a : Arg K} (hpos : PosSizes k a)
    {r : Except Err (CloudObj (Fin (k + 2) → K) × (Fin (k + 2) → K) × Nbh k K)} (t : ℕ → Fin (k + 2) → K)
    (h : LevelStep dev eps lower mode bs o a r) :
    LevelStep dev eps lower mode bs (o.moveEach t) a (r.map (moveLevel t)) := by
  have hnm : ∀ l : List K, Nbh.new dev ⟨(o.moveEach t).c, vecOf l, eps⟩ (vecOf l) none =
      (Nbh.new dev ⟨o.c, vecOf l, eps⟩ (vecOf l) none).map (·.moveEach t) :=
    fun l => nbhNew_move_none dev ⟨o.c, vecOf l, eps⟩ t (vecOf l)
  have hsm : ∀ {l : List K} {h : Nbh k K} {r}, completeCellSizes (k + 2) a = .ok l →
      Nbh.new dev ⟨o.c, vecOf l, eps⟩ (vecOf l) none = .ok h → SampleResult h lower mode r →
      SampleResult (h.moveEach t) lower mode (r.map (·.moveEach t)) := by
    intro l h r hl hn hs
    have e1 := (new_pairs hn).1
    refine sampleResult_move ?_ ?_ ?_ t hs
    · rw [e1]; exact hv
    · rw [e1]; exact hpos l hl
    · rw [e1]; exact heps
  have hsb : ∀ c : Cloud (Fin (k + 2) → K), (CloudObj.ofCloud (c.moveEach t)).setBatchShape bs =
      (((CloudObj.ofCloud c).setBatchShape bs).1, ((CloudObj.ofCloud c).setBatchShape bs).2.moveEach t) :=
    fun c => setBatchShape_move (CloudObj.ofCloud c) t bs
  cases h with
  | badSizes e he => exact LevelStep.badSizes e he
  | badSearch l e hl hn => exact LevelStep.badSearch l e hl (by rw [hnm, hn]; rfl)
  | badSample l h e hl hn hs => exact LevelStep.badSample l (h.moveEach t) e hl (by rw [hnm, hn]; rfl) (hsm hl hn hs)
  | badShape l h c e hl hn hs hb =>
    exact LevelStep.badShape l (h.moveEach t) (c.moveEach t) e hl (by rw [hnm, hn]; rfl) (hsm hl hn hs) (by rw [hsb]; exact hb)
  | ok l h c hl hn hs hb =>
    have := LevelStep.ok (dev := dev) (eps := eps) (lower := lower) (mode := mode) (bs := bs) (o := o.moveEach t) (a := a) l
      (h.moveEach t) (c.moveEach t) hl (by rw [hnm, hn]; rfl) (hsm hl hn hs) (by rw [hsb]; exact hb)
    rw [hsb] at this
    exact this

theorem levels_move {dev : Device} {eps : K} (heps : 0 < eps) {lower : String → String} {mode : String}
    {bs : Option (List ℕ)} {o : CloudObj (Fin (k + 2) → K)} (hv : o.c.Valid) {sizes : List (Arg K)}
    (hpos : ∀ a ∈ sizes, PosSizes k a) {r : Except Err (List (CloudObj (Fin (k + 2) → K) × (Fin (k + 2) → K) × Nbh k K))}
    (t : ℕ → Fin (k + 2) → K) (h : Levels dev eps lower mode bs o sizes r) :
    Levels dev eps lower mode bs (o.moveEach t) sizes (r.map (List.map (moveLevel t))) := by
  have hstep : ∀ {o o' : CloudObj (Fin (k + 2) → K)} {a : Arg K} {cs : Fin (k + 2) → K} {h : Nbh k K}, o.c.Valid →
      PosSizes k a → LevelStep dev eps lower mode bs o a (.ok (o', cs, h)) → o'.c.Valid := by
    intro o o' a cs h hv hp hs
    have : ∀ d, 0 < cs d := by
      cases hs with
      | ok l h c hl hn hs hb => exact hp l hl
    exact (levelStep_spec heps hv hs this).1.valid
  induction h with
  | nil o => exact Levels.nil _
  | fail o a as e hs =>
    exact Levels.fail _ _ _ _ (levelStep_move heps hv (hpos a (by simp)) t hs)
  | failLater o a as o' cs h e hs hl ih =>
    exact Levels.failLater _ _ _ _ _ _ _ (levelStep_move heps hv (hpos a (by simp)) t hs)
      (ih (hstep hv (hpos a (by simp)) hs) (fun a ha => hpos a (by simp [ha])))
  | cons o a as o' cs h rest hs hl ih =>
    exact Levels.cons _ _ _ _ _ _ _ (levelStep_move heps hv (hpos a (by simp)) t hs)
      (ih (hstep hv (hpos a (by simp)) hs) (fun a ha => hpos a (by simp [ha])))

/-- The hierarchy of the moved cloud: every level is moved. -/
def Hier.moveEach (H : Hier k K) (t : ℕ → Fin (k + 2) → K) : Hier k K :=
  ⟨H.clouds.map (·.moveEach t), H.cellSizes, H.nbhs.map (·.moveEach t), H.batchShape⟩

/-- **C164, hierarchies**: in both sampling modes the possible hierarchies of the
moved cloud are the moved hierarchies, and the possible exceptions are the same. -/
theorem C164_hierarchy {dev : Device} {eps : K} (heps : 0 < eps) {lower : String → String} {mode : String}
    {o : CloudObj (Fin (k + 2) → K)} (hv : o.c.Valid) {sizes : List (Arg K)} (hpos : ∀ a ∈ sizes, PosSizes k a)
    {r : Except Err (Hier k K)} (t : ℕ → Fin (k + 2) → K) (h : HierNew dev eps lower mode o sizes r) :
    HierNew dev eps lower mode (o.moveEach t) sizes (r.map (·.moveEach t)) := by
  rcases h with ⟨ls, hl, rfl⟩ | ⟨e, hl, rfl⟩
  · refine Or.inl ⟨ls.map (moveLevel t), levels_move heps hv hpos t hl, ?_⟩
    simp only [Except.map, Hier.moveEach, List.map_cons, List.map_map]
    rfl
  · exact Or.inr ⟨e, levels_move heps hv hpos t hl, rfl⟩

end

/-! ### The networks -/

section
variable {k : ℕ}

theorem NetConv.call_move (E : NetEnv) (L : NetConv (k + 2)) (cin cout : Cloud (Fin (k + 2) → ℝ)) (radius : ℝ)
    (f : Fin cin.n → ℕ → ℝ) (t : ℕ → Fin (k + 2) → ℝ) :
    L.call E (cin.moveEach t) (cout.moveEach t) radius f = L.call E cin cout radius f := by
  cases L with
  | mc L => exact C164_mcconv _ _ _ _ L cin cout radius _ f t
  | pc L => exact C164_pointconv _ _ _ _ L cin cout radius _ f t
  | kp L =>
    unfold NetConv.call
    dsimp only
    rw [C164_kpconv]
    cases L.call E.dev E.eps cin cout radius none f with
    | error e => rfl
    | ok x => rfl

theorem NetBlock.run_move (E : NetEnv) (b : NetBlock (k + 2)) (cin cout : Cloud (Fin (k + 2) → ℝ)) (convRadius : ℝ)
    (radius : RadiusArg ℝ) (f : Fin cin.n → ℕ → ℝ) (t : ℕ → Fin (k + 2) → ℝ) :
    b.run E (cin.moveEach t) (cout.moveEach t) convRadius radius f = b.run E cin cout convRadius radius f := by
  have hp : b.pool E (cin.moveEach t) (cout.moveEach t) radius f = b.pool E cin cout radius f := by
    unfold NetBlock.pool
    rw [C164_local_pooling]
    by_cases hs : b.strided = true
    · rw [if_pos hs, if_pos hs]
      cases localPool .max E.dev E.eps cin cout radius f <;> rfl
    · rw [if_neg hs, if_neg hs]
      rfl
  have hc : b.conv.call E (cin.moveEach t) (cout.moveEach t) convRadius (E.bnAct (n := (cin.moveEach t).n) b.bn1
      (b.down.apply (n := (cin.moveEach t).n) (E.bnAct (n := (cin.moveEach t).n) b.bn0 f))) =
      b.conv.call E cin cout convRadius (E.bnAct b.bn1 (b.down.apply (E.bnAct b.bn0 f))) :=
    NetConv.call_move E b.conv cin cout convRadius (E.bnAct b.bn1 (b.down.apply (E.bnAct b.bn0 f))) t
  unfold NetBlock.run
  rw [hp]
  rw [hc]
  cases b.conv.call E cin cout convRadius (E.bnAct b.bn1 (b.down.apply (E.bnAct b.bn0 f))) with
  | error e => rfl
  | ok r =>
    cases b.pool E cin cout radius f <;> rfl

theorem flattenFeatures_move {D : ℕ} {β : Type*} (o : CloudObj (Fin D → ℝ)) (t : ℕ → Fin D → ℝ) (blocks : List (List β)) :
    ((o.moveEach t).flattenFeatures blocks).1 = (o.flattenFeatures blocks).1 := by
  have hg : (o.moveEach t).getSizes = (o.getSizes.1, o.getSizes.2.moveEach t) := by
    obtain ⟨c, sz, b, sg, u⟩ := o
    cases sz with
    | some x => rfl
    | none =>
      cases b with
      | none => rfl
      | some sh =>
        have key : ∀ c' : Cloud (Fin D → ℝ), List.ofFn c'.batch = List.ofFn c.batch →
            CloudObj.getSizes ⟨c', none, some sh, sg, u⟩ =
            if sh.prod = (sizesOfIds (List.ofFn c.batch)).length then
              (.ok (sh, sizesOfIds (List.ofFn c.batch)), ⟨c', some (sh, sizesOfIds (List.ofFn c.batch)), some sh, sg, u⟩)
            else (.error .invalidArgument, ⟨c', some ([(sizesOfIds (List.ofFn c.batch)).length],
              sizesOfIds (List.ofFn c.batch)), some sh, sg, u⟩) := by
          intro c' e
          unfold CloudObj.getSizes
          dsimp only
          rw [e]
        rw [show (⟨c, none, some sh, sg, u⟩ : CloudObj (Fin D → ℝ)).moveEach t = ⟨c.moveEach t, none, some sh, sg, u⟩ from rfl,
          key (c.moveEach t) rfl, key c rfl]
        by_cases h : sh.prod = (sizesOfIds (List.ofFn c.batch)).length
        · rw [if_pos h, if_pos h]; rfl
        · rw [if_neg h, if_neg h]; rfl
  unfold CloudObj.flattenFeatures
  rw [hg]
  obtain ⟨r, o'⟩ := o.getSizes
  cases r with
  | error e => rfl
  | ok x =>
    obtain ⟨sh, sz⟩ := x
    dsimp only
    by_cases h : (flattenRows blocks sz).length = o.c.n
    · refine (congrArg Prod.fst (dif_pos h)).trans (Eq.trans ?_ (congrArg Prod.fst (dif_pos h)).symm)
      rfl
    · refine (congrArg Prod.fst (dif_neg h)).trans ?_
      rw [dif_neg h]
      rfl

theorem net40Loop_cons (E : NetEnv) (o : CloudObj (Fin (k + 2) → ℝ)) (f : Fin o.c.n → ℕ → ℝ) (o' : CloudObj (Fin (k + 2) → ℝ))
    (os : List (CloudObj (Fin (k + 2) → ℝ))) (l : Level40 (k + 2)) (ls : List (Level40 (k + 2))) :
    net40Loop E o f (o' :: os) (l :: ls) =
      (l.strided.run E o.c o'.c l.poolRadius (.vec [l.poolRadius]) f).bind (fun f1 =>
        (l.block.run E o'.c o'.c l.convRadius (.vec []) f1).bind (fun f2 => net40Loop E o' f2 os ls)) := by
  rw [net40Loop]
  cases l.strided.run E o.c o'.c l.poolRadius (.vec [l.poolRadius]) f with
  | error e => rfl
  | ok f1 =>
    dsimp only [Except.bind]
    cases l.block.run E o'.c o'.c l.convRadius (.vec []) f1 <;> rfl

theorem net40Loop_move (E : NetEnv) (t : ℕ → Fin (k + 2) → ℝ) : ∀ (os : List (CloudObj (Fin (k + 2) → ℝ)))
    (ls : List (Level40 (k + 2))) (o : CloudObj (Fin (k + 2) → ℝ)) (f : Fin o.c.n → ℕ → ℝ),
    net40Loop E (o.moveEach t) f (os.map (·.moveEach t)) ls =
      (net40Loop E o f os ls).map (fun x => ⟨x.1.moveEach t, x.2⟩)
  | [], [], o, f => rfl
  | [], l :: ls, o, f => rfl
  | o' :: os, [], o, f => rfl
  | o' :: os, l :: ls, o, f => by
    have h1 : l.strided.run E (o.moveEach t).c (o'.moveEach t).c l.poolRadius (.vec [l.poolRadius]) f =
      l.strided.run E o.c o'.c l.poolRadius (.vec [l.poolRadius]) f := NetBlock.run_move E l.strided o.c o'.c _ _ f t
    rw [net40Loop_cons E o f]
    refine (net40Loop_cons E (o.moveEach t) f (o'.moveEach t) (os.map (·.moveEach t)) l ls).trans ?_
    refine (congrArg (Except.bind · _) h1).trans ?_
    cases l.strided.run E o.c o'.c l.poolRadius (.vec [l.poolRadius]) f with
    | error e => rfl
    | ok f1 =>
      have h2 : l.block.run E (o'.moveEach t).c (o'.moveEach t).c l.convRadius (.vec []) f1 =
        l.block.run E o'.c o'.c l.convRadius (.vec []) f1 := NetBlock.run_move E l.block o'.c o'.c _ _ f1 t
      dsimp only [Except.bind]
      rw [h2]
      cases l.block.run E o'.c o'.c l.convRadius (.vec []) f1 with
      | error e => rfl
      | ok f2 => exact net40Loop_move E t os ls o' f2

theorem net40_logits_cons (E : NetEnv) (N : Net40 (k + 2)) (H : Hier k ℝ) (feats : List (List (ℕ → ℝ)))
    (o0 o1 : CloudObj (Fin (k + 2) → ℝ)) (os : List (CloudObj (Fin (k + 2) → ℝ))) (hc : H.clouds = o0 :: o1 :: os) :
    N.logits E H feats = (net40Init o1 feats).bind (fun f0 =>
      (N.init.call E o1.c o1.c N.convRadius0 f0).bind (fun f1 =>
        (N.block0.run E o1.c o1.c N.convRadius0 (.vec []) f1).bind (fun f2 =>
          (net40Loop E o1 f2 os N.levels).bind (fun x => .ok (List.ofFn (N.head.run40 E
              (fun (b : Fin x.1.c.B) ch => (globalPool .mean x.1.c x.2 b ch).getD 0))))))) := by
  unfold Net40.logits
  rw [hc]
  dsimp only
  cases net40Init o1 feats with
  | error e => rfl
  | ok f0 =>
    dsimp only [Except.bind]
    cases N.init.call E o1.c o1.c N.convRadius0 f0 with
    | error e => rfl
    | ok f1 =>
      dsimp only
      cases N.block0.run E o1.c o1.c N.convRadius0 (.vec []) f1 with
      | error e => rfl
      | ok f2 =>
        dsimp only
        cases net40Loop E o1 f2 os N.levels <;> rfl

theorem net40_logits_move (E : NetEnv) (N : Net40 (k + 2)) (H : Hier k ℝ) (feats : List (List (ℕ → ℝ)))
    (t : ℕ → Fin (k + 2) → ℝ) : N.logits E (H.moveEach t) feats = N.logits E H feats := by
  match hc : H.clouds with
  | [] =>
    unfold Net40.logits
    have : (H.moveEach t).clouds = [] := by show H.clouds.map _ = _; rw [hc]; rfl
    rw [this, hc]
  | [o0] =>
    unfold Net40.logits
    have : (H.moveEach t).clouds = [o0.moveEach t] := by show H.clouds.map _ = _; rw [hc]; rfl
    rw [this, hc]
  | o0 :: o1 :: os =>
    have hc' : (H.moveEach t).clouds = o0.moveEach t :: o1.moveEach t :: os.map (·.moveEach t) := by
      show H.clouds.map _ = _; rw [hc]; rfl
    rw [net40_logits_cons E N _ feats _ _ _ hc', net40_logits_cons E N _ feats _ _ _ hc]
    have h0 : net40Init (o1.moveEach t) feats = net40Init o1 feats := flattenFeatures_move o1 t _
    rw [h0]
    cases net40Init o1 feats with
    | error e => rfl
    | ok f0 =>
      have h1 : N.init.call E (o1.moveEach t).c (o1.moveEach t).c N.convRadius0 f0 =
        N.init.call E o1.c o1.c N.convRadius0 f0 := NetConv.call_move E N.init o1.c o1.c N.convRadius0 f0 t
      dsimp only [Except.bind]
      rw [h1]
      cases N.init.call E o1.c o1.c N.convRadius0 f0 with
      | error e => rfl
      | ok f1 =>
        have h2 : N.block0.run E (o1.moveEach t).c (o1.moveEach t).c N.convRadius0 (.vec []) f1 =
          N.block0.run E o1.c o1.c N.convRadius0 (.vec []) f1 :=
          NetBlock.run_move E N.block0 o1.c o1.c N.convRadius0 (.vec []) f1 t
        dsimp only
        rw [h2]
        cases N.block0.run E o1.c o1.c N.convRadius0 (.vec []) f1 with
        | error e => rfl
        | ok f2 =>
          dsimp only
          have h3 := net40Loop_move E t os N.levels o1 f2
          rw [h3]
          cases net40Loop E o1 f2 os N.levels with
          | error e => rfl
          | ok x => rfl

theorem netSmallLoop_last (E : NetEnv) (N : NetSmall (k + 2)) (o : CloudObj (Fin (k + 2) → ℝ)) (f : Fin o.c.n → ℕ → ℝ)
    (o' : CloudObj (Fin (k + 2) → ℝ)) :
    netSmallLoop E N o f [o'] [] = (N.last.call E o.c o'.c N.lastConvRadius f).bind
      (fun g => .ok ⟨o'.c.n, g ∘ o'.c.sortedIndicesBatch⟩) := by
  rw [netSmallLoop]
  cases N.last.call E o.c o'.c N.lastConvRadius f <;> rfl

theorem netSmallLoop_move (E : NetEnv) (N : NetSmall (k + 2)) (t : ℕ → Fin (k + 2) → ℝ) :
    ∀ (ls : List (LevelSmall (k + 2))) (os : List (CloudObj (Fin (k + 2) → ℝ)))
    (o : CloudObj (Fin (k + 2) → ℝ)) (f : Fin o.c.n → ℕ → ℝ),
    netSmallLoop E N (o.moveEach t) f (os.map (·.moveEach t)) ls = netSmallLoop E N o f os ls
  | [], [], o, f => rfl
  | l :: ls, [], o, f => rfl
  | [], [o'], o, f => by
    have h1 : N.last.call E (o.moveEach t).c (o'.moveEach t).c N.lastConvRadius f =
      N.last.call E o.c o'.c N.lastConvRadius f := NetConv.call_move E N.last o.c o'.c _ f t
    rw [netSmallLoop_last E N o f]
    refine (netSmallLoop_last E N (o.moveEach t) f (o'.moveEach t)).trans ?_
    exact congrArg (Except.bind · _) h1
  | [], o' :: o'' :: os, o, f => rfl
  | l :: ls, o' :: os, o, f => by
    have h1 : l.conv.call E (o.moveEach t).c (o'.moveEach t).c l.convRadius f =
      l.conv.call E o.c o'.c l.convRadius f := NetConv.call_move E l.conv o.c o'.c _ f t
    rw [netSmallLoop_cons E N o o' f]
    refine (netSmallLoop_cons E N (o.moveEach t) (o'.moveEach t) f (os.map (·.moveEach t)) l ls).trans ?_
    cases hc : l.conv.call E o.c o'.c l.convRadius f with
    | error e => rw [h1.trans hc]
    | ok g =>
      rw [h1.trans hc]
      exact netSmallLoop_move E N t ls os o' _

theorem netSmall_logits_move (E : NetEnv) (N : NetSmall (k + 2)) (H : Hier k ℝ) (feats : List (List (ℕ → ℝ)))
    (t : ℕ → Fin (k + 2) → ℝ) : N.logits E (H.moveEach t) feats = N.logits E H feats := by
  match hc : H.clouds with
  | [] =>
    unfold NetSmall.logits
    have : (H.moveEach t).clouds = [] := by show H.clouds.map _ = _; rw [hc]; rfl
    rw [this, hc]
  | o :: os =>
    have hc' : (H.moveEach t).clouds = o.moveEach t :: os.map (·.moveEach t) := by
      show H.clouds.map _ = _; rw [hc]; rfl
    have key : ∀ (H : Hier k ℝ) o os, H.clouds = o :: os → N.logits E H feats = ((o.flattenFeatures feats).1).bind (fun f0 =>
        (netSmallLoop E N o f0 os N.levels).bind (fun x => .ok (List.ofFn (N.head.runSmall E x.2)))) := by
      intro H o os hc
      unfold NetSmall.logits
      rw [hc]
      dsimp only
      cases (o.flattenFeatures feats).1 with
      | error e => rfl
      | ok f0 =>
        dsimp only [Except.bind]
        cases netSmallLoop E N o f0 os N.levels <;> rfl
    rw [key _ _ _ hc', key _ _ _ hc, flattenFeatures_move]
    cases (o.flattenFeatures feats).1 with
    | error e => rfl
    | ok f0 =>
      have := netSmallLoop_move E N t N.levels os o f0
      dsimp only [Except.bind]
      rw [this]

/-! ### Padded input -/

/-- Specification: the second batch holds the same shapes, shape `b` moved by the
vector `t b`; what stands in the padding is arbitrary. -/
def ShapesMoved (t : ℕ → Fin (k + 2) → ℝ) (points points' : List (List (Fin (k + 2) → ℝ))) (sizes : List ℕ) : Prop :=
  ∀ b, (points'.getD b []).take (sizes.getD b 0) =
    ((points.getD b []).take (sizes.getD b 0)).map (fun p d => p d + t b d)

theorem flattenRows_move (V : ℕ) (t : ℕ → Fin (k + 2) → ℝ) : ∀ (sizes : List ℕ) (points points' : List (List (Fin (k + 2) → ℝ))),
    sizes.length = points.length → sizes.length = points'.length → (∀ b ∈ points, b.length = V) → (∀ s ∈ sizes, s ≤ V) →
    ∀ j, ShapesMoved (fun b => t (b + j)) points points' sizes →
    flattenRows points' sizes = List.zipWith (fun p b d => p d + t (b + j) d) (flattenRows points sizes) (repeatRange sizes)
  | [], [], [], _, _, _, _, _, _ => rfl
  | s :: ss, x :: xs, y :: ys, hl, hl', hV, hs, j, hm => by
    have h1 : ∀ {γ : Type} (l : List γ) (ls : List (List γ)), flattenRows (l :: ls) (s :: ss) = l.take s ++ flattenRows ls ss := by
      intro γ l ls
      simp [flattenRows]
    have h0 := hm 0
    simp only [List.getD_cons_zero] at h0
    have hx : (x.take s).length = s := by
      rw [List.length_take, hV x (by simp)]
      exact min_eq_left (hs s (by simp))
    rw [h1, h1, repeatRange_cons, List.zipWith_append (by rw [hx, List.length_replicate]), h0, List.zipWith_map_right]
    congr 1
    · apply List.ext_getElem
      · rw [List.length_map, List.length_zipWith, hx, List.length_replicate, min_self]
      · intro i g1 g2
        rw [List.getElem_map, List.getElem_zipWith, List.getElem_replicate]
    · rw [flattenRows_move V t ss xs ys (by simpa using hl) (by simpa using hl') (fun b hb => hV b (by simp [hb]))
        (fun a ha => hs a (by simp [ha])) (j + 1) (fun b => by
          have := hm (b + 1)
          simp only [List.getD_cons_succ] at this
          rw [this]
          refine List.map_congr_left fun p _ => funext fun d => ?_
          rw [show b + 1 + j = b + (j + 1) by omega])]
      congr 1
      funext p b d
      rw [show b + 1 + j = b + (j + 1) by omega]

theorem cloud_eq {α : Type*} {c c' : Cloud α} (hn : c'.n = c.n) (hp : ∀ i : Fin c'.n, c'.pts i = c.pts (Fin.cast hn i))
    (hb : ∀ i : Fin c'.n, c'.batch i = c.batch (Fin.cast hn i)) (hB : c'.B = c.B) : c' = c := by
  obtain ⟨n, p, b, B⟩ := c
  obtain ⟨n', p', b', B'⟩ := c'
  dsimp only at hn hB
  subst hn hB
  have h1 : p' = p := funext hp
  have h2 : b' = b := funext hb
  rw [h1, h2]

theorem newPadded_move {V B : ℕ} {points points' : List (List (Fin (k + 2) → ℝ))} {sizes : List ℕ}
    (hP : PaddedOk V points sizes) (hlen : points'.length = points.length) (t : ℕ → Fin (k + 2) → ℝ)
    (hm : ShapesMoved t points points' sizes) :
    CloudObj.newPadded [points'.length] V points' (some sizes) (some B) =
      (CloudObj.newPadded [points.length] V points (some sizes) (some B)).map (·.moveEach t) := by
  have hfl := flattenRows_move V t sizes points points' hP.len (hP.len.trans hlen.symm) hP.block hP.size 0
    (by simpa using hm)
  have hrl := repeatRange_length sizes
  have hl1 := flattenRows_length V points sizes hP.len.symm hP.block hP.size
  have hl : (repeatRange sizes).length = (flattenRows points sizes).length := by omega
  have hl' : (repeatRange sizes).length = (flattenRows points' sizes).length := by
    rw [hfl, List.length_zipWith]; omega
  have key : ∀ (q : List (List (Fin (k + 2) → ℝ))) (n : ℕ) (h : (repeatRange sizes).length = (flattenRows q sizes).length),
      CloudObj.newPadded [n] V q (some sizes) (some B) = if B ≠ n then .error .invalidArgument else
        .ok ⟨(⟨flattenRows q sizes, repeatRange sizes, B⟩ : RawCloud _).toCloud h, some ([n], sizes), some [n], some [n],
          some (.padded [n] sizes V)⟩ := by
    intro q n h
    unfold CloudObj.newPadded
    simp only [Option.getD_some, List.prod_cons, List.prod_nil, mul_one]
    refine if_congr Iff.rfl rfl ?_
    exact dif_pos h
  rw [key _ _ hl, key _ _ hl', hlen]
  split
  · rfl
  · refine congrArg Except.ok ?_
    have : (⟨flattenRows points' sizes, repeatRange sizes, B⟩ : RawCloud _).toCloud hl' =
        ((⟨flattenRows points sizes, repeatRange sizes, B⟩ : RawCloud _).toCloud hl).moveEach t := by
      refine cloud_eq (hl'.symm.trans hl) (fun i => ?_) (fun i => rfl) rfl
      show (flattenRows points' sizes)[i.val]'_ = fun d => ((flattenRows points sizes)[i.val]'_) d + t ((repeatRange sizes)[i.val]'_) d
      have h2 := i.isLt
      have h3 : i.val < (flattenRows points' sizes).length := h2
      have := List.getElem_of_eq hfl h3
      rw [this, List.getElem_zipWith]
      rfl
    rw [this]
    rfl

theorem posSizes_one {r : ℝ} (h : 0 < r) : PosSizes k (⟨[1], [r]⟩ : Arg ℝ) := by
  intro l hl d
  simp only [completeCellSizes] at hl
  rw [if_pos (by omega)] at hl
  simp only [Nat.sub_self, List.getElem?_cons_zero, Except.ok.injEq] at hl
  subst hl
  have : ([r] ++ List.replicate (k + 2 - 1) r) = List.replicate (k + 2) r := by
    rw [show k + 2 - 1 = k + 1 from rfl, List.singleton_append, ← List.replicate_succ]
  unfold vecOf
  rw [this, List.getD_eq_getElem?_getD, List.getElem?_replicate, if_pos d.isLt]
  exact h

theorem moved_back {t : ℕ → Fin (k + 2) → ℝ} {points points' : List (List (Fin (k + 2) → ℝ))} {sizes : List ℕ}
    (hm : ShapesMoved t points points' sizes) : ShapesMoved (-t) points' points sizes := by
  intro b
  rw [hm b, List.map_map]
  conv_lhs => rw [← List.map_id ((points.getD b []).take _)]
  refine List.map_congr_left fun p _ => funext fun d => ?_
  simp

theorem call_move {E : NetEnv} (heps : 0 < E.eps) {lower : String → String} {mode : String} {B V : ℕ} {rs : List ℝ}
    (hrs : ∀ r ∈ rs, 0 < r) {L : Hier k ℝ → Except Err (List (ℕ → ℝ))} {t : ℕ → Fin (k + 2) → ℝ}
    (hL : ∀ H, L (H.moveEach t) = L H) {points points' : List (List (Fin (k + 2) → ℝ))} {sizes : List ℕ}
    (hP : PaddedOk V points sizes) (hlen : points'.length = points.length) (hm : ShapesMoved t points points' sizes)
    {res : Except Err (List (ℕ → ℝ))}
    (h : match CloudObj.newPadded [points.length] V points (some sizes) (some B) with
      | .error e => res = .error e
      | .ok o => (∃ e, HierNew E.dev E.eps lower mode o (rs.map (fun r => ⟨[1], [r]⟩)) (.error e) ∧ res = .error e) ∨
        ∃ H, HierNew E.dev E.eps lower mode o (rs.map (fun r => ⟨[1], [r]⟩)) (.ok H) ∧ res = L H) :
    match CloudObj.newPadded [points'.length] V points' (some sizes) (some B) with
      | .error e => res = .error e
      | .ok o => (∃ e, HierNew E.dev E.eps lower mode o (rs.map (fun r => ⟨[1], [r]⟩)) (.error e) ∧ res = .error e) ∨
        ∃ H, HierNew E.dev E.eps lower mode o (rs.map (fun r => ⟨[1], [r]⟩)) (.ok H) ∧ res = L H := by
  have hpos : ∀ a ∈ rs.map (fun r => (⟨[1], [r]⟩ : Arg ℝ)), PosSizes k a := by
    intro a ha
    obtain ⟨r, hr, rfl⟩ := List.mem_map.1 ha
    exact posSizes_one (hrs r hr)
  rw [newPadded_move hP hlen t hm]
  cases ho : CloudObj.newPadded [points.length] V points (some sizes) (some B) with
  | error e =>
    rw [ho] at h
    exact h
  | ok o =>
    rw [ho] at h
    obtain ⟨_, _, p3, _⟩ := newPadded_spec hP.len hP.block hP.size ho
    dsimp only [Except.map] at h ⊢
    rcases h with ⟨e, he, rfl⟩ | ⟨H, hH, rfl⟩
    · exact Or.inl ⟨e, C164_hierarchy heps p3 hpos t he, rfl⟩
    · exact Or.inr ⟨_, C164_hierarchy heps p3 hpos t hH, (hL H).symm⟩

/-- **C164, the ModelNet40 network**: if every shape of the batch is moved by a
vector of its own (and the padding is filled otherwise), the network has the same
possible results. -/
theorem C164_net40 (E : NetEnv) (heps : 0 < E.eps) (N : Net40 (k + 2))
    (hN : 0 < N.poolRadius0 ∧ ∀ l ∈ N.levels, 0 < l.poolRadius) (lower : String → String) (mode : String) {B V : ℕ}
    {points points' : List (List (Fin (k + 2) → ℝ))} {sizes : List ℕ} (hP : PaddedOk V points sizes)
    (hP' : PaddedOk V points' sizes) {t : ℕ → Fin (k + 2) → ℝ} (hm : ShapesMoved t points points' sizes)
    (feats : List (List (ℕ → ℝ))) (res : Except Err (List (ℕ → ℝ))) :
    N.Call E lower mode B V points' feats sizes res ↔ N.Call E lower mode B V points feats sizes res := by
  have hrs : ∀ r ∈ N.poolRadius0 :: N.levels.map Level40.poolRadius, 0 < r := by
    intro r hr
    rcases List.mem_cons.1 hr with rfl | hr
    · exact hN.1
    · obtain ⟨l, hl, rfl⟩ := List.mem_map.1 hr
      exact hN.2 l hl
  have hlen : points'.length = points.length := hP'.len.symm.trans hP.len
  constructor
  · exact call_move heps hrs (L := fun H => N.logits E H feats) (fun H => net40_logits_move E N H feats _) hP' hlen.symm
      (moved_back hm)
  · exact call_move heps hrs (L := fun H => N.logits E H feats) (fun H => net40_logits_move E N H feats _) hP hlen hm

/-- **C164, the small network**. -/
theorem C164_small (E : NetEnv) (heps : 0 < E.eps) (N : NetSmall (k + 2))
    (hN : 0 < N.lastSampleRadius ∧ ∀ l ∈ N.levels, 0 < l.sampleRadius) (lower : String → String) (mode : String) {B V : ℕ}
    {points points' : List (List (Fin (k + 2) → ℝ))} {sizes : List ℕ} (hP : PaddedOk V points sizes)
    (hP' : PaddedOk V points' sizes) {t : ℕ → Fin (k + 2) → ℝ} (hm : ShapesMoved t points points' sizes)
    (feats : List (List (ℕ → ℝ))) (res : Except Err (List (ℕ → ℝ))) :
    N.Call E lower mode B V points' feats sizes res ↔ N.Call E lower mode B V points feats sizes res := by
  have hrs : ∀ r ∈ N.levels.map LevelSmall.sampleRadius ++ [N.lastSampleRadius], 0 < r := by
    intro r hr
    rcases List.mem_append.1 hr with hr | hr
    · obtain ⟨l, hl, rfl⟩ := List.mem_map.1 hr
      exact hN.2 l hl
    · rw [List.mem_singleton.1 hr]
      exact hN.1
  have hlen : points'.length = points.length := hP'.len.symm.trans hP.len
  constructor
  · exact call_move heps hrs (L := fun H => N.logits E H feats) (fun H => netSmall_logits_move E N H feats _) hP' hlen.symm
      (moved_back hm)
  · exact call_move heps hrs (L := fun H => N.logits E H feats) (fun H => netSmall_logits_move E N H feats _) hP hlen hm

/-- **C164, a moved shape in another batch**: at inference with constant input
features and cell averages, a shape gets the same logits wherever it lies, in
whatever order its points come and whatever else is in the batch. -/
theorem C164_shape (E : NetEnv) (hE : E.training = false) (heps : 0 < E.eps) (N : Net40 (k + 2)) (hN : N.Ok)
    (lower : String → String) (mode : String) (hm : lower mode ∈ ["average", "cell average", "cell_average"])
    {B V B' V' : ℕ} {points points' : List (List (Fin (k + 2) → ℝ))} {sizes sizes' : List ℕ}
    (hP : PaddedOk V points sizes) (hP' : PaddedOk V' points' sizes') {feats feats' : List (List (ℕ → ℝ))} (v : ℕ → ℝ)
    (hc : ∀ row ∈ feats, ∀ x ∈ row, x = v) (hc' : ∀ row ∈ feats', ∀ x ∈ row, x = v) {rows rows' : List (ℕ → ℝ)}
    (h : N.Call E lower mode B V points feats sizes (.ok rows))
    (h' : N.Call E lower mode B' V' points' feats' sizes' (.ok rows')) (b b' : ℕ) (hb : b < points.length)
    (hb' : b' < points'.length) (w : Fin (k + 2) → ℝ)
    (hw : (((points.getD b []).take (sizes.getD b 0)).map (fun p d => p d + w d)).Perm
      ((points'.getD b' []).take (sizes'.getD b' 0))) :
    rows'[b']? = rows[b]? := by
  have hg : ∀ b, (points.map (List.map (fun p d => p d + w d))).getD b [] = (points.getD b []).map (fun p d => p d + w d) := by
    intro b
    rw [List.getD_eq_getElem?_getD, List.getD_eq_getElem?_getD, List.getElem?_map]
    cases points[b]? <;> rfl
  have hmv : ShapesMoved (fun _ => w) points (points.map (List.map (fun p d => p d + w d))) sizes := by
    intro b
    rw [hg, List.map_take]
  have hPm : PaddedOk V (points.map (List.map (fun p d => p d + w d))) sizes := by
    refine ⟨by rw [List.length_map]; exact hP.len, ?_, hP.size⟩
    intro l hl
    obtain ⟨l', hl', rfl⟩ := List.mem_map.1 hl
    rw [List.length_map]
    exact hP.block l' hl'
  have h1 := (C164_net40 E heps N ⟨hN.radius0.1, fun l hl => (hN.levels l hl).2.2.2.2.1⟩ lower mode hP hPm hmv feats
    (.ok rows)).2 h
  refine (C97_logits_of_a_shape E hE heps N hN lower mode hm hPm hP' v hc hc' h1 h').2 b b' (by rwa [List.length_map]) hb' ?_
  rw [hg, ← List.map_take]
  exact hw

/-! ### Examples -/

/-- The two shapes, the first moved to the left, the second far to the right, with
another padding. -/
def exShapesMoved : List (List (Fin 2 → ℝ)) :=
  [[![-3, 0], ![-3, 1], ![-2, 0]], [![1000, 7], ![1002, 7], ![5, 5]]]

/-- The movements. -/
def exMove : ℕ → Fin 2 → ℝ := fun b => if b = 0 then ![-3, 0] else ![1000, 7]

/-- The hypotheses of C164 are met: in the moved batch the network returns the same
logits. -/
example : ∃ rows, exNet40.Call exEnv id "poisson" 2 3 exShapes (List.replicate 2 (List.replicate 3 (fun _ => 1))) [3, 2] (.ok rows) ∧
    exNet40.Call exEnv id "poisson" 2 3 exShapesMoved (List.replicate 2 (List.replicate 3 (fun _ => 1))) [3, 2] (.ok rows) := by
  have hP : PaddedOk 3 exShapes [3, 2] := ⟨rfl, by simp [exShapes], by simp⟩
  have hP' : PaddedOk 3 exShapesMoved [3, 2] := ⟨rfl, by simp [exShapesMoved], by simp⟩
  have he : 0 < exEnv.eps := by norm_num [exEnv]
  obtain ⟨rows, h⟩ := (C97_returns exEnv rfl he exNet40 exNet40_ok id "poisson" (by simp) hP (by simp) (by simp [exShapes])
    (feats := List.replicate 2 (List.replicate 3 (fun _ => 1))) rfl (by simp)).1
  refine ⟨rows, h, (C164_net40 exEnv he exNet40 ⟨exNet40_ok.radius0.1, fun l hl => (exNet40_ok.levels l hl).2.2.2.2.1⟩
    id "poisson" hP hP' (t := exMove) ?_ _ _).2 h⟩
  intro b
  match b with
  | 0 =>
    simp only [exShapes, exShapesMoved, exMove, List.getD_cons_zero, List.take_succ_cons, List.take_zero, List.map_cons,
      List.map_nil, if_true, List.cons.injEq, and_true]
    refine ⟨?_, ?_, ?_⟩ <;> funext d <;> fin_cases d <;> norm_num
  | 1 =>
    simp only [exShapes, exShapesMoved, exMove, List.getD_cons_zero, List.getD_cons_succ, List.take_succ_cons, List.take_zero,
      List.map_cons, List.map_nil, one_ne_zero, if_false, List.cons.injEq, and_true]
    refine ⟨?_, ?_⟩ <;> funext d <;> fin_cases d <;> norm_num
  | b + 2 => simp [exShapes, exShapesMoved]

end
end PC
