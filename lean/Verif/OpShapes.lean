import Verif.OpChecks

/-!
# Static shapes of the custom operations

When a graph is built, TensorFlow calls the function given with `SetShapeFn` of every
operation on what is known of the shapes of its inputs, and later optimisations rely on
the result.  This file models these functions
(`tfg_custom_ops/*/cc/ops/*_ops.cpp`), the shapes the operations allocate when they run,
and the gradient functions of `custom_ops_wrapper.py:151-162, 187-198` on shapes.
-/

namespace PC

/-- What is known of a shape: nothing, or the rank and some of the sizes. -/
abbrev PShape := Option (List (Option ℕ))

/-- A tensor of shape `s` agrees with what is known. -/
def PShape.Fits (p : PShape) (s : List ℕ) : Prop :=
  match p with
  | none => True
  | some l => List.Forall₂ (fun d n => ∀ x, d = some x → x = n) l s

/-- `pIC->Dim(s, i)`: unknown for a shape of unknown rank; the function does not check
`i` against the rank (`none`: reads outside of the list of dimensions). -/
def PShape.dim (p : PShape) (i : ℕ) : Option (Option ℕ) :=
  match p with
  | none => some none
  | some l => l[i]?

/-- compute_keys_ops.cpp:36-41. -/
def keysInfer (pts : PShape) : Option (List PShape) := do
  let n ← pts.dim 0
  return [some [n]]

/-- build_grid_ds_ops.cpp:33-40 (`-1` is an unknown size). -/
def dsInfer (batchSize : ℕ) : Option (List PShape) := some [some [some batchSize, none, none, some 2]]

/-- find_neighbors_ops.cpp:55-61. -/
def findInfer (samples : PShape) : Option (List PShape) := do
  let m ← samples.dim 0
  return [some [m], some [none, some 2]]

/-- sampling_ops.cpp:44-53. -/
def samplingInfer (pts : PShape) : Option (List PShape) := do
  let D ← pts.dim 1
  return [some [none, D], some [none], some [none]]

/-- compute_pdf_ops.cpp:36-41, 51-56 (input 2 is `sample_neigh_indices`). -/
def pdfInfer (starts : PShape) : Option (List PShape) := do
  let n ← starts.dim 0
  return [some [n]]

/-- compute_pdf_ops.cpp:67-74. -/
def pdfGradsInfer (pts : PShape) : Option (List PShape) := do
  let n ← pts.dim 0
  let D ← pts.dim 1
  return [some [n, D]]

/-- basis_proj_ops.cpp:31-39. -/
def projInfer (basis feats starts : PShape) : Option (List PShape) := do
  let m ← starts.dim 0
  let c ← feats.dim 1
  let b ← basis.dim 1
  return [some [m, c, b]]

/-- basis_proj_ops.cpp:49-53. -/
def projGradsInfer (basis feats : PShape) : Option (List PShape) := some [basis, feats]

/-! ### shapes at run time -/

/-- compute_keys_ops.cpp:105-107. -/
def keysOut (pts : List ℕ) : Except OpFail (List (List ℕ)) := do
  return [[← dimSize pts 0]]

/-- build_grid_ds_ops.cpp:95-97; `c0`, `c1` are the values of `num_cells_cpu`. -/
def dsOut (batchSize c0 c1 : ℕ) : Except OpFail (List (List ℕ)) := .ok [[batchSize, c0, c1, 2]]

/-- find_neighbors_ops.cpp:159-161, 222-224; `numNeighbors` is the last value of the
scan. -/
def findOut (samples : List ℕ) (numNeighbors : ℕ) : Except OpFail (List (List ℕ)) := do
  return [[← dimSize samples 0], [numNeighbors, 2]]

/-- sampling_ops.cpp:157-165, 179-187; `num` is the number of sampled points or of
occupied cells. -/
def samplingOut (mode : ℤ) (pts : List ℕ) (num : ℕ) : Except OpFail (List (List ℕ)) := do
  let D ← dimSize pts 1
  return if mode = 0 then [[num, D], [num], [num]] else [[num, D], [num], [1]]

/-- compute_pdf_ops.cpp:145-147. -/
def pdfOut (starts : List ℕ) : Except OpFail (List (List ℕ)) := do
  return [[← dimSize starts 0]]

/-- compute_pdf_ops.cpp:237-239. -/
def pdfGradsOut (pts : List ℕ) : Except OpFail (List (List ℕ)) := do
  return [[← dimSize pts 0, ← dimSize pts 1]]

/-- basis_proj_ops.cpp:121-123. -/
def projOut (basis feats starts : List ℕ) : Except OpFail (List (List ℕ)) := do
  return [[← dimSize starts 0, ← dimSize feats 1, ← dimSize basis 1]]

/-- basis_proj_ops.cpp:206-211. -/
def projGradsOut (basis feats nb : List ℕ) : Except OpFail (List (List ℕ)) := do
  return [[← dimSize nb 0, ← dimSize basis 1], [← dimSize feats 0, ← dimSize feats 1]]

/-! ### gradient functions -/

/-- `_compute_pdf_grad` (custom_ops_wrapper.py:151-162): shapes of the returned
gradients, `none` for `None`. -/
def pdfGradFn (W bs : ℕ) (mode : ℤ) (pts nb starts invBw invR grad : List ℕ) : Except OpFail (List (Option (List ℕ))) := do
  computePdfGradsOp W bs mode pts nb starts invBw invR grad
  let out ← pdfGradsOut pts
  return [out[0]?, none, none, none, none]

/-- `_basis_proj_grad` (custom_ops_wrapper.py:187-198). -/
def projGradFn (W : ℕ) (basis feats nb starts grad : List ℕ) : Except OpFail (List (Option (List ℕ))) := do
  basisProjGradsOp W basis feats nb starts grad
  let out ← projGradsOut basis feats nb
  return [out[0]?, out[1]?, none, none]

end PC
