import Verif.CudaStore
import Mathlib.Analysis.SpecialFunctions.Pow.Real
import Mathlib.Data.Int.Log

/-!
# Neighbour search in floating point arithmetic

The other modules compute with exact numbers.  Here every floating point operation of the
neighbour search may be off by a relative error of at most `u`; nothing else is assumed about the
rounding, in particular not that two kernels round alike, so the contraction of multiplications
and additions by the compiler is covered (the inner operation is then exact).  Not covered: overflow,
underflow and the conversion of cell indices above `2 ^ 31`.
-/

set_option linter.unusedVariables false

namespace PC

/-- `y` may be the result of an operation with exact result `x` and unit roundoff `u`. -/
def Rnd (u x y : ℝ) : Prop := |y - x| ≤ u * |x|

/-- Rounding to nearest with 24 significant bits (`float32` without limits of the exponent). -/
noncomputable def round24 (x : ℝ) : ℝ :=
  round (x * (2 : ℝ) ^ (23 - Int.log 2 |x|)) * (2 : ℝ) ^ (Int.log 2 |x| - 23)

section
variable {D : ℕ}

/-- `cell` may be the cell computed for the point `p` (custom_ops_wrapper.py:36-43 and 98-108:
`aabb_min / cell_size` and `reciprocal(cell_size)`; grid_utils.h:63-74: `position * inv - smin`, floor, clamp).
`lo` is the lower corner of the box, `cs` the cell sizes. -/
def FpCell (u : ℝ) (lo cs : Fin D → ℝ) (nc : Fin D → ℤ) (p : Fin D → ℝ) (cell : Fin D → ℤ) : Prop :=
  ∀ d, ∃ inv smin a q, Rnd u (1 / cs d) inv ∧ Rnd u (lo d / cs d) smin ∧ Rnd u (p d * inv) a ∧ Rnd u (a - smin) q ∧
    cell d = min (max ⌊q⌋ 0) (nc d - 1)

/-- `t` may be the value of `length(x)` (math_helper.h:312-327): a sum of squares in a loop,
then the root. -/
def FpLength (u : ℝ) (x : Fin D → ℝ) (t : ℝ) : Prop :=
  ∃ s : ℕ → ℝ, s 0 = 0 ∧ (∀ d : Fin D, ∃ m, Rnd u (x d * x d) m ∧ Rnd u (s d + m) (s (d + 1))) ∧ Rnd u √(s D) t

/-- `h` may be the outcome of the test `length((sample - point) * invRadii) < 1`
(count_neighbors_kernels.cu.cc:85, store_neighbors_kernels.cu.cc:92 and 162); `invRadii` is
`reciprocal(radii)`. -/
def FpTest (u : ℝ) (p q rad : Fin D → ℝ) (h : Bool) : Prop :=
  ∃ (x : Fin D → ℝ) (t : ℝ), (∀ d, ∃ inv dif, Rnd u (1 / rad d) inv ∧ Rnd u (p d - q d) dif ∧ Rnd u (dif * inv) (x d)) ∧
    FpLength u x t ∧ h = decide (t < 1)

end

/-! ### search for given cells -/

/-- What the search sees of a point cloud: batch ids and cells of the points, number of cells. -/
structure CellCloud (D : ℕ) where
  n : ℕ
  batch : Fin n → ℕ
  cell : Fin n → Fin D → ℤ
  nc : Fin D → ℤ

namespace CellCloud
variable {D : ℕ}

/-- Key of a point (compute_keys_kernels.cu.cc:63-69). -/
def key (c : CellCloud D) (i : Fin c.n) : ℤ := cuKey (c.cell i) c.nc (c.batch i)

/-- `grid._sorted_indices` (Grid.py:56-57). -/
def perm (c : CellCloud D) : Equiv.Perm (Fin c.n) := argsortDesc c.key

/-- `grid._sorted_keys` as an array. -/
def sortedKeys (c : CellCloud D) (i : ℕ) : ℤ := if h : i < c.n then c.key (c.perm ⟨i, h⟩) else 0

/-- A table built by `build_grid_ds` in any schedule (see `BuiltTable`). -/
def Built (c : CellCloud D) (tab : ℤ → ℕ × ℕ) : Prop :=
  ∃ (T : ℕ) (tr : List ((ℤ × Comp) × ℕ)), 0 < T ∧ Interleave (buildDsThreads c.nc c.sortedKeys c.n T) tr ∧
    tab = fun s => buildDsResult tr s

/-- The range array of a pass with the offsets `offs` (see `opRanges`); `cen s` is the batch id and
the cell of sample `s`. -/
def ranges (c : CellCloud D) (fuel : ℕ) (tab : ℤ → ℕ × ℕ) (cen : ℕ → ℕ × (Fin D → ℤ)) (offs : List (Fin D → ℤ)) (i : ℕ) :
    ℕ × ℕ :=
  (cuRange fuel c.nc c.sortedKeys tab 1 (cuKey (cen (i / offsetsPerBlock)).2 c.nc (cen (i / offsetsPerBlock)).1)
    (offs.getD (i % offsetsPerBlock) 0)).getD (0, 0)

end CellCloud

/-- The search in floating point arithmetic: cells of points and centres, and outcomes of the
tests. -/
structure FpSearch (D : ℕ) where
  /-- the points, in the original order -/
  pts : ℕ → Fin D → ℝ
  c : CellCloud D
  /-- batch ids, positions and cells of the centres -/
  cenBatch : ℕ → ℕ
  cen : ℕ → Fin D → ℝ
  cenCell : ℕ → Fin D → ℤ
  /-- lower corners of the boxes of the batch elements, cell sizes, radii -/
  lo : ℕ → Fin D → ℝ
  cs : Fin D → ℝ
  rad : Fin D → ℝ
  /-- outcome of the test of sample `s` with sorted position `i` -/
  hit : ℕ → ℕ → Bool

/-- All numbers of the search result from rounded operations. -/
structure FpSearch.Ok {D : ℕ} (f : FpSearch D) (u : ℝ) : Prop where
  nc : ∀ d, 0 < f.c.nc d
  cells : ∀ i, FpCell u (f.lo (f.c.batch i)) f.cs f.c.nc (f.pts i) (f.c.cell i)
  cenCells : ∀ s, FpCell u (f.lo (f.cenBatch s)) f.cs f.c.nc (f.cen s) (f.cenCell s)
  hits : ∀ s (i : Fin f.c.n), FpTest u (f.cen s) (f.pts (f.c.perm i)) f.rad (f.hit s i)

/-! ### values that are not finite -/

/-- A floating point value: not a number, infinite or finite. -/
inductive Flt (K : Type*)
  | nan | pinf | ninf
  | fin (x : K)

namespace Flt
variable {K : Type*} [Field K] [LinearOrder K] [FloorRing K]

/-- `a - b`. -/
def sub : Flt K → Flt K → Flt K
  | fin a, fin b => fin (a - b)
  | nan, _ => nan
  | _, nan => nan
  | pinf, pinf => nan
  | ninf, ninf => nan
  | pinf, _ => pinf
  | ninf, _ => ninf
  | _, pinf => ninf
  | _, ninf => pinf

/-- `a * s` for a positive finite `s`. -/
def scale (s : K) : Flt K → Flt K
  | fin a => fin (a * s)
  | nan => nan
  | pinf => pinf
  | ninf => ninf

/-- `(int)floorf(a)` (grid_utils.h:72): what the conversion gives for values that are not finite is a parameter. -/
def toInt (junk : Flt K → ℤ) : Flt K → ℤ
  | fin a => ⌊a⌋
  | a => junk a

/-- The value if it is finite. -/
def toK : Flt K → Option K
  | fin a => some a
  | _ => none

/-- `compute_cell_gpu_funct` (grid_utils.h:63-74) for lower corner `lo` and cell sizes `cs`. -/
def cell {D : ℕ} (junk : Flt K → ℤ) (lo : Fin D → Flt K) (cs : Fin D → K) (nc : Fin D → ℤ) (p : Fin D → Flt K) (d : Fin D) : ℤ :=
  min (max (toInt junk (sub (scale (cs d)⁻¹ (p d)) (scale (cs d)⁻¹ (lo d)))) 0) (nc d - 1)

/-- `length((sample - point) * invRadii) < 1`: comparisons with a value that is not a number fail, and an infinite
difference makes the length infinite or not a number. -/
def test {D : ℕ} (p q : Fin D → Flt K) (rad : Fin D → K) : Bool :=
  match Fin.foldr D (fun d acc => (toK (scale (rad d)⁻¹ (sub (p d) (q d)))).bind (fun x => acc.map (x * x + ·))) (some 0) with
  | some t => decide (t < 1)
  | none => false

end Flt

/-- Input of the search with coordinates of all kinds; the corners of the boxes may be anything, because points that are not
finite may spoil them. -/
structure FltSearch (D : ℕ) (K : Type*) where
  n : ℕ
  pts : Fin n → Fin D → Flt K
  batch : Fin n → ℕ
  lo : ℕ → Fin D → Flt K
  cs : Fin D → K
  rad : Fin D → K
  nc : Fin D → ℤ
  cenBatch : ℕ → ℕ
  cen : ℕ → Fin D → Flt K
  junk : Flt K → ℤ

namespace FltSearch
variable {D : ℕ} {K : Type*} [Field K] [LinearOrder K] [FloorRing K]

/-- Cells of the points (compute_keys_kernels.cu.cc:52-66). -/
def cloud (f : FltSearch D K) : CellCloud D :=
  ⟨f.n, f.batch, fun i => Flt.cell f.junk (f.lo (f.batch i)) f.cs f.nc (f.pts i), f.nc⟩

/-- Batch ids and cells of the centres (find_neighbors_ops.cpp:173-176). -/
def cenCell (f : FltSearch D K) (s : ℕ) : ℕ × (Fin D → ℤ) :=
  (f.cenBatch s, Flt.cell f.junk (f.lo (f.cenBatch s)) f.cs f.nc (f.cen s))

/-- The points in the order of the keys. -/
def sorted (f : FltSearch D K) (i : Fin f.n) : Fin f.n := f.cloud.perm i

/-- The test of sample `s` with sorted position `i`. -/
def hit (f : FltSearch D K) (s i : ℕ) : Bool :=
  if h : i < f.n then Flt.test (f.cen s) (f.pts (f.sorted ⟨i, h⟩)) f.rad else false

end FltSearch

end PC
