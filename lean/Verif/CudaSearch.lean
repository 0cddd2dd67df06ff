import Verif.CudaGrid
import Verif.Neighbors
import Mathlib.Data.Nat.Log

/-!
# CUDA neighbour search: key ranges, offsets and candidate points

`custom_ops/tfg_custom_ops/find_neighbors/cc/kernels/find_ranges_grid_ds_kernels.cu.cc`,
`find_neighbors/cc/ops/find_neighbors_ops.cpp`.
-/

set_option linter.unusedVariables false

namespace PC

/-! ### `find_ranges_grid_ds_gpu_kernel`: the two binary searches -/

/-- The variables `curMinRange`, `curMaxRange` (find_ranges_grid_ds_kernels.cu.cc:110-111,
in the following: find_ranges).  The flags
`stopMinRange`, `stopMaxRange` always equal the tests on these variables
(lines 114-115 and 137-138), so they are not part of the state. -/
structure Search where
  mn : ℕ × ℕ
  mx : ℕ × ℕ
  deriving DecidableEq

/-- The stopping tests (find_ranges:137-138). -/
def Search.stopMin (s : Search) : Prop := s.mn.2 - s.mn.1 ≤ 1
def Search.stopMax (s : Search) : Prop := s.mx.2 - s.mx.1 ≤ 1

instance (s : Search) : Decidable s.stopMin := inferInstanceAs (Decidable (_ ≤ _))
instance (s : Search) : Decidable s.stopMax := inferInstanceAs (Decidable (_ ≤ _))

/-- One iteration of the loop (find_ranges:116-139); `lo` is `dsRange.x`. -/
def searchStep (keys : ℕ → ℤ) (lo : ℕ) (minKey maxKey : ℤ) (s : Search) : Search :=
  let minPivot := (s.mn.2 + s.mn.1) / 2
  let maxPivot := (s.mx.2 + s.mx.1) / 2
  { mn := if s.stopMin then s.mn
      else if keys (minPivot + lo) > maxKey then (minPivot, s.mn.2) else (s.mn.1, minPivot)
    mx := if s.stopMax then s.mx
      else if keys (maxPivot + lo) ≥ minKey then (maxPivot, s.mx.2) else (s.mx.1, maxPivot) }

/-- The loop, with a bound on the number of iterations: `none` if it has not
stopped by then. -/
def searchLoop (keys : ℕ → ℤ) (lo : ℕ) (minKey maxKey : ℤ) : ℕ → Search → Option Search
  | 0, _ => none
  | fuel + 1, s =>
    if s.stopMin ∧ s.stopMax then some s
    else searchLoop keys lo minKey maxKey fuel (searchStep keys lo minKey maxKey s)

/-- The range computed from the final variables (find_ranges:141-165). -/
def searchResult (keys : ℕ → ℤ) (lo : ℕ) (minKey maxKey : ℤ) (s : Search) : ℕ × ℕ :=
  let inR := fun j => minKey ≤ keys (j + lo) ∧ keys (j + lo) ≤ maxKey
  (if inR s.mn.1 then s.mn.1 + lo else if inR s.mn.2 then s.mn.2 + lo else 0,
   if inR s.mx.2 then s.mx.2 + lo + 1 else if inR s.mx.1 then s.mx.1 + lo + 1 else 0)

/-- `maxKey` and `minKey` (find_ranges:102-107), `(min, max)`. -/
def keyBounds (auxKey total last : ℤ) : ℤ × ℤ :=
  (if auxKey.tdiv total = (auxKey - last).tdiv total then auxKey - last
    else auxKey.tdiv total * total,
   if auxKey.tdiv total = (auxKey + last).tdiv total then auxKey + last
    else auxKey.tdiv total * total + total - 1)

/-- The value of `pOutRanges` after iteration `(sample, offset)` of
`find_ranges_grid_ds_gpu_kernel` (find_ranges:63-168, used for `D > 2`); the
memory is set to zero before the launch (line 257).  `tab` is the access
structure, `key` the key of the sample, `last` is `pLastDOffsets`. `none`: the
loop did not stop within `fuel` iterations. -/
def cuFindRange (fuel : ℕ) {D : ℕ} (nc : Fin D → ℤ) (keys : ℕ → ℤ) (tab : ℤ → ℕ × ℕ) (last : ℤ)
    (key : ℤ) (off : Fin D → ℤ) : Option (ℕ × ℕ) :=
  let b := (cuDecode key nc).1
  let cell : Fin D → ℤ := fun d => (cuDecode key nc).2 d + off d
  if ∀ d : Fin D, d.val < D - 1 → 0 ≤ cell d ∧ cell d < nc d then
    let rg := tab (cuDsFromCell b cell nc)
    if rg.1 < rg.2 then
      let bd := keyBounds (cuKey cell nc b) (cuTotal nc) last
      match searchLoop keys rg.1 bd.1 bd.2 fuel
          ⟨(0, rg.2 - rg.1 - 1), (0, rg.2 - rg.1 - 1)⟩ with
      | some s => some (searchResult keys rg.1 bd.1 bd.2 s)
      | none => none
    else some (0, 0)
  else some (0, 0)

/-- The same for `find_ranges_grid_ds_2d_gpu_kernel` (find_ranges:199-234, used
for `D = 2`). -/
def cuFindRange2 {D : ℕ} (nc : Fin D → ℤ) (tab : ℤ → ℕ × ℕ) (key : ℤ) (off : Fin D → ℤ) : ℕ × ℕ :=
  let b := (cuDecode key nc).1
  let cell : Fin D → ℤ := fun d => (cuDecode key nc).2 d + off d
  if ∀ d : Fin D, 0 ≤ cell d ∧ cell d < nc d then tab (cuDsFromCell b cell nc) else (0, 0)

/-- The kernel chosen by `find_ranges_grid_ds_gpu` (find_ranges:275-299). -/
def cuRange (fuel : ℕ) {D : ℕ} (nc : Fin D → ℤ) (keys : ℕ → ℤ) (tab : ℤ → ℕ × ℕ) (last : ℤ)
    (key : ℤ) (off : Fin D → ℤ) : Option (ℕ × ℕ) :=
  if 2 < D then cuFindRange fuel nc keys tab last key off else some (cuFindRange2 nc tab key off)

/-! ### `computeTotalNumOffsets` -/

/-- The digit loop (find_ranges:321-327) for the remaining `j-1, …, 0`; the
state is `(auxInt, curOffset)`. -/
def offsetLoop (axis : ℕ) : ℕ → ℕ × (ℕ → ℤ) → ℕ × (ℕ → ℤ)
  | 0, s => s
  | j + 1, (aux, o) =>
    offsetLoop axis j (aux / (axis * 2 + 1),
      Function.update o j ((aux % (axis * 2 + 1) : ℕ) - (axis : ℤ)))

/-- `std::max(D-2, 1) + 1`: the number of digits. -/
def offsetDigits (D : ℕ) : ℕ := max (D - 2) 1 + 1

/-- The number of offsets (find_ranges:309-312). -/
def numOffsets (D axis : ℕ) : ℕ := (axis * 2 + 1) * (axis * 2 + 1) ^ max (D - 2) 1

/-- Offset number `i` (find_ranges:316-331). `curOffset` keeps its entries
between iterations, but all its `D` entries are overwritten. -/
def offsetAt (D axis : ℕ) (i : ℕ) (d : Fin D) : ℤ :=
  let o := (offsetLoop axis (offsetDigits D) (i, fun _ => 0)).2
  if D ≠ 2 ∧ d.val = D - 1 then 0 else o d.val

/-- The offsets in the order of the output vector. -/
def cuOffsets (D axis : ℕ) : List (Fin D → ℤ) :=
  (List.range (numOffsets D axis)).map (offsetAt D axis)

/-- `NUM_OFFSETS_X_COMPUTE_BLOCK` (find_neighbors_ops.cpp:37). -/
def offsetsPerBlock : ℕ := 9

/-- The offsets handled by each pass (find_neighbors_ops.cpp:180-212):
`numOffsets / 9` passes of nine offsets. -/
def offsetBlocks (D axis : ℕ) : List (List (Fin D → ℤ)) :=
  (List.range (numOffsets D axis / offsetsPerBlock)).map (fun i =>
    ((cuOffsets D axis).drop (offsetsPerBlock * i)).take offsetsPerBlock)

/-! ### candidate points and neighbours of one centre -/

section
variable {K : Type*} [Field K] [LinearOrder K] [FloorRing K] {D : ℕ}

/-- The test of the counting and storing kernels
(count_neighbors_kernels.cu.cc:81, store_neighbors_kernels.cu.cc:95 and 161):
`length((sample - point) * invRadii) < 1`. -/
def cuTest (p q inv : Fin D → K) : Prop := normLt (fun d => (p d - q d) * inv d) 1

instance (p q inv : Fin D → K) : Decidable (cuTest p q inv) := inferInstanceAs (Decidable (normLt _ _))

/-- `grid._sorted_indices` when the keys are computed by the CUDA code
(Grid.py:50-57). -/
def cuPerm (g : Grid D K) : Equiv.Perm (Fin g.c.n) :=
  argsortDesc (fun i => cuGridKey g (g.c.batch i) (g.c.pts i))

/-- `grid._sorted_keys` as an array. -/
def cuSortedKeys (g : Grid D K) (i : ℕ) : ℤ :=
  if h : i < g.c.n then cuGridKey g (g.c.batch (cuPerm g ⟨i, h⟩)) (g.c.pts (cuPerm g ⟨i, h⟩)) else 0

/-- Number of cells as the kernels see it. -/
def cuNc (g : Grid D K) (d : Fin D) : ℤ := (g.numCells d : ℤ)

/-- The positions examined for a centre `p` of batch element `b`, offset after
offset (find_neighbors_ops.cpp:191-212 and the loops over `curPtIter`);
`none` if a range loop does not stop. -/
def cuCandidates (fuel : ℕ) (g : Grid D K) (tab : ℤ → ℕ × ℕ) (b : ℕ) (p : Fin D → K) :
    List (Fin D → ℤ) → Option (List ℕ)
  | [] => some []
  | off :: l =>
    match cuRange fuel (cuNc g) (cuSortedKeys g) tab 1 (cuGridKey g b p) off,
        cuCandidates fuel g tab b p l with
    | some r, some rest => some (List.range' r.1 (r.2 - r.1) ++ rest)
    | _, _ => none

/-- The positions found by all passes for one centre, with multiplicity. -/
def cuNeighborsOf (fuel : ℕ) (g : Grid D K) (tab : ℤ → ℕ × ℕ) (b : ℕ) (p inv : Fin D → K) :
    Option (List ℕ) :=
  match cuCandidates fuel g tab b p (offsetBlocks D 1).flatten with
  | some l => some (l.filter (fun i =>
      if h : i < g.c.n then decide (cuTest p (g.c.pts (cuPerm g ⟨i, h⟩)) inv) else false))
  | none => none

end

end PC
