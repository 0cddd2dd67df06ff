import Verif.Grid

/-!
# Neighbour search (`pylib/pc/custom_ops/custom_ops_tf.py:118-258`) and
`Neighborhood` objects (`pylib/pc/Neighborhood.py`)
-/

set_option linter.unusedVariables false

namespace PC

/-- `tf.linalg.norm(v) < r`, written without square roots (see
`normLt_iff_sqrt`). -/
def normLt {K : Type*} [Field K] [LinearOrder K] {D : ℕ} (v : Fin D → K) (r : K) : Prop :=
  0 < r ∧ ∑ d, v d * v d < r * r

/-- `tf.linalg.norm(v) <= r`. -/
def normLe {K : Type*} [Field K] [LinearOrder K] {D : ℕ} (v : Fin D → K) (r : K) : Prop :=
  0 ≤ r ∧ ∑ d, v d * v d ≤ r * r

instance {K : Type*} [Field K] [LinearOrder K] {D : ℕ} (v : Fin D → K) (r : K) :
    Decidable (normLt v r) := inferInstanceAs (Decidable (_ ∧ _))

instance {K : Type*} [Field K] [LinearOrder K] {D : ℕ} (v : Fin D → K) (r : K) :
    Decidable (normLe v r) := inferInstanceAs (Decidable (_ ∧ _))

/-- A python loop that fails if one iteration fails. -/
def collect {β : Type*} : List (Except Err β) → Except Err (List β)
  | [] => .ok []
  | .error e :: _ => .error e
  | .ok a :: l =>
    match collect l with
    | .ok r => .ok (a :: r)
    | .error e => .error e

section
variable {K : Type*} [Field K] [LinearOrder K] [FloorRing K] {k : ℕ}

/-- The nine offsets of custom_ops_tf.py:177-186, in order. -/
def adjOffsets : List (ℤ × ℤ) :=
  [(-1, -1), (-1, 0), (-1, 1), (0, 1), (0, 0), (0, -1), (1, -1), (1, 0), (1, 1)]

/-- Clipping to `[0, num_cells]` (custom_ops_tf.py:188-190). -/
def clip (x : ℤ) (hi : ℕ) : ℕ := min x.toNat hi

/-- `tf.gather_nd(data_structure[b], [idx])` for one index pair
(custom_ops_tf.py:192): out of bounds raises on the CPU and reads 0 on the
GPU. -/
def gatherDs (dev : Device) (ds : ℕ → ℕ → ℕ → ℕ × ℕ) (n0 n1 b i j : ℕ) : Except Err (ℕ × ℕ) :=
  if i < n0 ∧ j < n1 then .ok (ds b i j)
  else match dev with
    | .cpu => .error .invalidArgument
    | .gpu => .ok (0, 0)

/-- The index range examined for a centre point (custom_ops_tf.py:152-194):
the hull of the ranges of the nine adjacent 2D cells.  The centre's 2D cell is
computed with `radii[:2]`, not with the cell sizes. -/
def adjRange (dev : Device) (g : Grid (k + 2) K) (ds : ℕ → ℕ → ℕ → ℕ × ℕ) (p : Fin (k + 2) → K)
    (b : ℕ) (radii : Fin (k + 2) → K) : Except Err (ℕ × ℕ) :=
  let c0 := Grid.clampCell (aabbMin g.eps g.c b 0) (p 0) (radii 0) (g.numCells 0)
  let c1 := Grid.clampCell (aabbMin g.eps g.c b 1) (p 1) (radii 1) (g.numCells 1)
  match collect (adjOffsets.map (fun o => gatherDs dev ds (g.numCells 0) (g.numCells 1) b
      (clip (c0 + o.1) (g.numCells 0)) (clip (c1 + o.2) (g.numCells 1)))) with
  | .error e => .error e
  | .ok entries => .ok ((entries.map Prod.fst).min?.getD 0, (entries.map Prod.snd).max?.getD 0)

/-- Neighbours (sorted indices) of one centre (custom_ops_tf.py:170-204):
points of the examined range that are closer than `radii[0]` and in the same
batch element.  `data_structure[cur_batch_id]` raises for a batch id outside
the grid's batch. -/
def neighborsOf (dev : Device) (g : Grid (k + 2) K) (ds : ℕ → ℕ → ℕ → ℕ × ℕ)
    (p : Fin (k + 2) → K) (b : ℕ) (radii : Fin (k + 2) → K) : Except Err (List (Fin g.c.n)) :=
  if b < g.c.B then
    match adjRange dev g ds p b radii with
    | .error e => .error e
    | .ok (s, e) => .ok ((List.finRange g.c.n).filter (fun q => s ≤ q.val ∧ q.val < e ∧
        normLt (fun d => g.sortedPts q d - p d) (radii 0) ∧ g.sortedBatch q = b))
  else .error .invalidArgument

/-- Result of a neighbour search: `center_neigh_ranges` (ends) and the pairs
`[neighbour, centre]`. -/
structure Pairs (n m : ℕ) where
  ranges : List ℕ
  pairs : List (Fin n × Fin m)

/-- Concatenation of the per-centre results (custom_ops_tf.py:166-210). -/
def assemble {n m : ℕ} (nbs : List (Fin m × List (Fin n))) : Pairs n m where
  ranges := cumEnds (nbs.map (fun x => x.2.length)) 0
  pairs := nbs.flatMap (fun x => x.2.map (fun q => (q, x.1)))

/-- `find_neighbors_tf` (custom_ops_tf.py:118-212), `radii` after broadcasting.
`max_neighbors` is ignored by the code.  Without centres `tf.concat([])`
raises. -/
def findNeighbors (dev : Device) (g : Grid (k + 2) K) (ctr : Cloud (Fin (k + 2) → K))
    (radii : Fin (k + 2) → K) : Except Err (Pairs g.c.n ctr.n) :=
  match g.getDS dev with
  | .error e => .error e
  | .ok ds =>
    if ctr.n = 0 then .error .valueError
    else
      match collect ((List.finRange ctr.n).map
          (fun i => neighborsOf dev g ds (ctr.pts i) (ctr.batch i) radii)) with
      | .error e => .error e
      | .ok ls => .ok (assemble ((List.finRange ctr.n).zip ls))

end

section
variable {K : Type*} [Field K] [LinearOrder K] {D : ℕ}

/-- `find_neighbors_no_grid` (custom_ops_tf.py:216-258): `tf.where` lists the
`True` entries of the `[centres, points]` matrix in row-major order, the
reversal of the columns gives pairs `[point, centre]`; the ranges are the
segment maxima of `1..M` (`none`: the most negative int, stored by TensorFlow
for a centre without neighbour). -/
def findNeighborsNoGrid (c ctr : Cloud (Fin D → K)) (radius : K) :
    List (Option ℕ) × List (Fin c.n × Fin ctr.n) :=
  let nbs := (List.finRange ctr.n).flatMap (fun i =>
    ((List.finRange c.n).filter (fun q =>
      c.batch q = ctr.batch i ∧ normLe (fun d => c.pts q d - ctr.pts i d) radius)).map
        (fun q => (q, i)))
  let ranges := (List.finRange ctr.n).map (fun i =>
    segMax (fun j : Fin nbs.length => j.val + 1) (fun j => (nbs.get j).2.val) i.val)
  (ranges, nbs)

end

section
variable {K : Type*} [Field K] [LinearOrder K] [FloorRing K] {k : ℕ}

/-- A `Neighborhood` object (Neighborhood.py:218-255); `nb` are
`_samples_neigh_ranges`, `_neighbors`; `sample` is `_point_cloud_sampled`. -/
structure Nbh (k : ℕ) (K : Type*) [Field K] [LinearOrder K] where
  g : Grid (k + 2) K
  radii : Fin (k + 2) → K
  sample : Cloud (Fin (k + 2) → K)
  equalSamples : Bool
  nb : Pairs g.c.n sample.n

/-- The sorted points of a grid as a cloud (Neighborhood.py:231-233, 80-82). -/
def Grid.sortedCloud (g : Grid (k + 2) K) : Cloud (Fin (k + 2) → K) :=
  ⟨g.c.n, g.sortedPts, g.sortedBatch, g.c.B⟩

/-- `Neighborhood.__init__` (Neighborhood.py:218-255). -/
def Nbh.new (dev : Device) (g : Grid (k + 2) K) (radii : Fin (k + 2) → K)
    (sample : Option (Cloud (Fin (k + 2) → K))) : Except Err (Nbh k K) :=
  match sample with
  | some s =>
    match findNeighbors dev g s radii with
    | .error e => .error e
    | .ok nb => .ok ⟨g, radii, s, false, nb⟩
  | none =>
    match findNeighbors dev g g.sortedCloud radii with
    | .error e => .error e
    | .ok nb => .ok ⟨g, radii, g.sortedCloud, true, nb⟩

/-- `_original_neigh_ids` (Neighborhood.py:245-250): the neighbour column is
translated to input indices, the centre column is left as it is. -/
def Nbh.originalNeighIds (h : Nbh k K) : List (Fin h.g.c.n × Fin h.sample.n) :=
  h.nb.pairs.map (fun p => (h.g.perm p.1, p.2))

/-- `compute_neighborhoods` (Neighborhood.py:52-104) without ranges. -/
def computeNeighborhoods (dev : Device) (g : Grid (k + 2) K) (radii : Fin (k + 2) → K)
    (ctr : Cloud (Fin (k + 2) → K)) (returnSortedIds : Bool) :
    Except Err (List (Fin g.c.n × Fin ctr.n)) :=
  match findNeighbors dev g ctr radii with
  | .error e => .error e
  | .ok nb => .ok (if returnSortedIds then nb.pairs
      else nb.pairs.map (fun p => (g.perm p.1, p.2)))

/-- `Neighborhood.transpose` (Neighborhood.py:318-329): the object itself if
the samples are the grid's points, otherwise a new search with the roles
exchanged (the grid is built on the samples with cell size = radii). -/
def Nbh.transpose (dev : Device) (h : Nbh k K) : Except Err (Nbh k K) :=
  if h.equalSamples then .ok h
  else Nbh.new dev ⟨h.sample, h.radii, h.g.eps⟩ h.radii (some h.g.c)

/-- `_NeighborhoodTransposed.__init__` (Neighborhood.py:332-366) for
`_equal_samples = False` (otherwise `self = neighborhood` rebinds a local name
and the object is left without attributes).  Result: `_original_neigh_ids`,
`_neighbors`, `_samples_neigh_ranges` (`none` as in `findNeighborsNoGrid`). -/
def Nbh.transposedByIndex (h : Nbh k K) :
    List (Fin h.sample.n × Fin h.g.c.n) × List (Fin h.sample.n × Fin h.g.c.n) × List (Option ℕ) :=
  let g2 : Grid (k + 2) K := ⟨h.sample, h.radii, h.g.eps⟩
  let rev := h.originalNeighIds.map (fun p => (p.2, p.1))
  let sorted := List.ofFn (fun j : Fin rev.length =>
    rev.get (argsortAsc (fun j : Fin rev.length => (rev.get j).2) j))
  let nbs := sorted.map (fun p => ((g2.perm).symm p.1, p.2))
  let ranges := (List.finRange h.g.c.n).map (fun i =>
    segMax (fun j : Fin nbs.length => j.val + 1) (fun j => (nbs.get j).2.val) i.val)
  (sorted, nbs, ranges)

end
end PC
