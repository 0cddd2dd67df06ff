import Verif.PointCloud
import Mathlib.Algebra.Order.Floor.Defs
import Mathlib.Algebra.BigOperators.Group.Finset.Basic

/-!
# Bounding boxes (`pylib/pc/PointCloud.py:23-65`), regular grid
(`pylib/pc/Grid.py`), keys and 2D access structure
(`pylib/pc/custom_ops/custom_ops_tf.py:21-114`)
-/

set_option linter.unusedVariables false

namespace PC

section Boxes
variable {K : Type*} [Field K] [LinearOrder K] {D : ℕ}

/-- `_aabb_min[b, d]` (PointCloud.py:38-40).  `eps` is the constant `1e-9`
(`eps = 0` when float32 rounding absorbs it).  `none`: no point in `b`. -/
def aabbMin (eps : K) (c : Cloud (Fin D → K)) (b : ℕ) (d : Fin D) : Option K :=
  (segMin (fun i => c.pts i d) c.batch b).map (· - eps)

/-- `_aabb_max[b, d]` (PointCloud.py:41-43). -/
def aabbMax (eps : K) (c : Cloud (Fin D → K)) (b : ℕ) (d : Fin D) : Option K :=
  (segMax (fun i => c.pts i d) c.batch b).map (· + eps)

end Boxes

/-! ### Keys -/

/-- Entry `d` of `cell_multiplier` (custom_ops_tf.py:47-48): the reversed
cumulative product of `num_cells` followed by 1, i.e. the product of the
`num_cells` from dimension `d` on. -/
def cellMultiplier {D : ℕ} (nc : Fin D → ℕ) (d : ℕ) : ℕ :=
  ∏ d' : Fin D, if d ≤ d'.val then nc d' else 1

/-- The key of a cell (custom_ops_tf.py:49-51). -/
def cellKey {D : ℕ} (nc : Fin D → ℕ) (b : ℕ) (cell : Fin D → ℕ) : ℕ :=
  b * cellMultiplier nc 0 + ∑ d : Fin D, cell d * cellMultiplier nc (d.val + 1)

section GridSection
variable {K : Type*} [Field K] [LinearOrder K] [FloorRing K] {D : ℕ}

/-- Arguments of `Grid(point_cloud, cell_sizes)` (Grid.py:32-42); `cs` are the
cell sizes after broadcasting (see `castToNumDims`).  The argument `aabb` is
ignored by the code (Grid.py:42), so it does not appear. -/
structure Grid (D : ℕ) (K : Type*) where
  c : Cloud (Fin D → K)
  cs : Fin D → K
  eps : K

namespace Grid

/-- `batch_num_cells[b, d]` (Grid.py:44-46).  For an element without points the
code computes `ceil(-inf)` cast to int32, the most negative number, which the
maximum with 1 discards; 0 here. -/
def batchNumCells (g : Grid D K) (b : ℕ) (d : Fin D) : ℕ :=
  match aabbMin g.eps g.c b d, aabbMax g.eps g.c b d with
  | some lo, some hi => ⌈(hi - lo) / g.cs d⌉.toNat
  | _, _ => 0

/-- `_num_cells` (Grid.py:47-48). -/
def numCells (g : Grid D K) (d : Fin D) : ℕ :=
  max ((Finset.range g.c.B).sup (fun b => g.batchNumCells b d)) 1

/-- `floor((p - min) / size)` cast to int, clamped to `[0, hi]`
(custom_ops_tf.py:41-46 and 156-161: the upper bound is `num_cells`, not
`num_cells - 1`).  An element without points has `min` = the largest float;
then the quotient is hugely negative and the clamp gives 0. -/
def clampCell (lo : Option K) (p size : K) (hi : ℕ) : ℕ :=
  match lo with
  | some lo => min (⌊(p - lo) / size⌋.toNat) hi
  | none => 0

/-- `cell_ind` of point `i` (custom_ops_tf.py:39-46). -/
def cell (g : Grid D K) (i : Fin g.c.n) (d : Fin D) : ℕ :=
  clampCell (aabbMin g.eps g.c (g.c.batch i) d) (g.c.pts i d) (g.cs d) (g.numCells d)

/-- `compute_keys_tf` (custom_ops_tf.py:21-52). -/
def key (g : Grid D K) (i : Fin g.c.n) : ℕ := cellKey g.numCells (g.c.batch i) (g.cell i)

/-- `_sorted_indices` (Grid.py:56-57). -/
def perm (g : Grid D K) : Equiv.Perm (Fin g.c.n) := argsortDesc g.key

/-- `_sorted_keys` (Grid.py:58). -/
def sortedKey (g : Grid D K) (k : Fin g.c.n) : ℕ := g.key (g.perm k)

/-- `_sorted_points` (Grid.py:61-62). -/
def sortedPts (g : Grid D K) (k : Fin g.c.n) : Fin D → K := g.c.pts (g.perm k)

/-- `_sorted_batch_ids` (Grid.py:63-64). -/
def sortedBatch (g : Grid D K) (k : Fin g.c.n) : ℕ := g.c.batch (g.perm k)

end Grid
end GridSection

/-! ### The 2D access structure -/

/-- One entry of the access structure from the first and last index of the
segment `s` (custom_ops_tf.py:91-108): `indices` is `0..n-1`, `last` uses
`indices + 1`; empty segments become `(0, 0)`. -/
def dsEntry {n : ℕ} (dsIdx : Fin n → ℕ) (s : ℕ) : ℕ × ℕ :=
  match segMin (fun k : Fin n => k.val) dsIdx s, segMax (fun k : Fin n => k.val + 1) dsIdx s with
  | some a, some b => (a, b)
  | _, _ => (0, 0)

/-- `build_grid_ds_tf` (custom_ops_tf.py:56-114) for `D = k + 2` dimensions
(the code asserts `D > 1`).  The result is the table `[b, i, j]`.
`unsorted_segment_min/max` with an index `≥ num_cells_2D` raise on the CPU and
ignore the row on the GPU. -/
def buildGridDs (dev : Device) {n k : ℕ} (sortedKeys : Fin n → ℕ) (nc : Fin (k + 2) → ℕ) (B : ℕ) :
    Except Err (ℕ → ℕ → ℕ → ℕ × ℕ) :=
  let dsIdx : Fin n → ℕ := fun i => sortedKeys i / cellMultiplier nc 2
  if dev = .cpu ∧ ∃ i, B * nc 0 * nc 1 ≤ dsIdx i then .error .invalidArgument
  else .ok (fun b i j => dsEntry dsIdx ((b * nc 0 + i) * nc 1 + j))

/-- `Grid.get_DS` (Grid.py:68-84). Memoisation of an unchanging value is not
modelled. -/
def Grid.getDS {K : Type*} [Field K] [LinearOrder K] [FloorRing K] {k : ℕ} (dev : Device)
    (g : Grid (k + 2) K) : Except Err (ℕ → ℕ → ℕ → ℕ × ℕ) :=
  buildGridDs dev g.sortedKey g.numCells g.c.B

end PC
