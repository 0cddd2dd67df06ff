import Verif.CudaStore
import Verif.CudaProj
import Verif.CudaPdf
import Verif.Layers

/-!
# Layers on the GPU, from the keys to the output

The functions of `Layers.lean` with the CUDA operations in place of the
TensorFlow functions (`pylib/pc/custom_ops/__init__.py:19-37`), composed as in
`Neighborhood.py:218-293`, `MCConv.py`, `PointConv.py`, `KPConv.py`, `Pooling.py`.
Every operation is a relation between its arguments and the results of its runs:
launch sizes and schedules are chosen for every launch anew.
The results are tensors without error: the argument checks of the operations are
modelled in `OpChecks.lean`.
-/

set_option linter.unusedVariables false

namespace PC

section
variable {K : Type*} [Field K] [LinearOrder K] [FloorRing K] {k : ℕ}

/-- Batch id and position of sample `s`, the arguments `_points` and `_batch_ids`
of the search (custom_ops_wrapper.py:96-97). -/
def Cloud.center {D : ℕ} (c : Cloud (Fin D → K)) (s : ℕ) : ℕ × (Fin D → K) :=
  if h : s < c.n then (c.batch ⟨s, h⟩, c.pts ⟨s, h⟩) else (0, fun _ => 0)

/-- `_sorted_points`, `_sorted_batch_ids` (Grid.py:58-62) with the keys of the CUDA
operation, as the cloud of samples (Neighborhood.py:231-233). -/
def Grid.cuSorted (g : Grid (k + 2) K) : Cloud (Fin (k + 2) → K) :=
  ⟨g.c.n, fun i => g.c.pts (cuPerm g i), fun i => g.c.batch (cuPerm g i), g.c.B⟩

/-- A table built by the CUDA kernel for the grid `g` (`get_DS`, Grid.py:66-82), by
any number of threads in any schedule (the statement `BuiltTable` of C54). -/
def CuTable (g : Grid (k + 2) K) (tab : ℤ → ℕ × ℕ) : Prop :=
  ∃ (T : ℕ) (tr : List ((ℤ × Comp) × ℕ)), 0 < T ∧
    Interleave (buildDsThreads (cuNc g) (cuSortedKeys g) g.c.n T) tr ∧
    tab = fun s => buildDsResult tr s

/-- A run of `find_neighbors` (custom_ops_wrapper.py:70-105) on the GPU without
limit: the table, the ranges, the counters, the scan and the storing of the pairs.
The pairs hold positions of the sorted points.  `Ws` is the number of blocks the
device can run of the scan kernels, `fuel` bounds the steps of the binary
searches (they stop, C55). -/
def GpuFind (Ws : ℕ) (g : Grid (k + 2) K) (ctr : Cloud (Fin (k + 2) → K)) (radii : Fin (k + 2) → K)
    (nb : Pairs g.c.n ctr.n) : Prop :=
  ∃ (tab : ℤ → ℕ × ℕ) (fuel Wc Wn total : ℕ) (res : StoreMem), CuTable g tab ∧
    Nat.clog 2 g.c.n + 1 ≤ fuel ∧ 0 < Wc ∧ 0 < Wn ∧
    FindRun ctr.n offsetsPerBlock Wc Ws Wn ((offsetBlocks (k + 2) 1).map (opRanges fuel g tab ctr.center))
      (opHit g ctr.center (fun d => (radii d)⁻¹)) total res ∧
    nb.ranges = (List.range ctr.n).map res.cnt ∧
    nb.pairs.map (fun p => (p.1.val, p.2.val)) = (List.range total).map res.out

/-- `_original_neigh_ids` (Neighborhood.py:245-250): the neighbour column through
`_sorted_indices`. -/
def gpuIds (g : Grid (k + 2) K) {m : ℕ} (nb : Pairs g.c.n m) : List (Fin g.c.n × Fin m) :=
  nb.pairs.map (fun p => (cuPerm g p.1, p.2))

/-- `_LocalPointPooling.__call__` (Pooling.py:103-166) on the GPU, for one radius in
all dimensions. -/
def GpuPool (Ws : ℕ) (op : PoolOp) (eps : K) (cin cout : Cloud (Fin (k + 2) → K)) (radius : K)
    (f : Fin cin.n → ℕ → K) (out : Fin cout.n → ℕ → Option K) : Prop :=
  ∃ nb : Pairs cin.n cout.n,
    GpuFind Ws (⟨cin, fun _ => radius, eps⟩ : Grid (k + 2) K) cout (fun _ => radius) nb ∧
    out = fun c ch =>
      let ids := gpuIds (⟨cin, fun _ => radius, eps⟩ : Grid (k + 2) K) nb
      op.apply (fun j : Fin ids.length => f (ids.get j).1 ch) (fun j => (ids.get j).2.val) c.val

end

/-! ### densities and projection -/

section
variable {k : ℕ}

/-- `get_pdf` (Neighborhood.py:257-311, constant bandwidth, not normalised) of a
neighbourhood between two clouds on the GPU: a search of the grid's own sorted
points, `compute_pdf` on it, and the gather with the sorted neighbour column. -/
def GpuPdf (Ws : ℕ) (g : Grid (k + 2) ℝ) (radii bw : Fin (k + 2) → ℝ) {m : ℕ} (nb : Pairs g.c.n m)
    (pdf : List ℝ) : Prop :=
  ∃ (self : Pairs g.c.n g.cuSorted.n) (B W : ℕ) (out : ℕ → ℝ), 0 < B ∧ 0 < W ∧
    GpuFind Ws g g.cuSorted radii self ∧
    PdfFwd (pdfArgs g.cuSorted.pts self.pairs (fun i => self.ranges.getD i 0) bw radii)
      KDEMode.constant.value B W out ∧
    pdf = nb.pairs.map (fun p => out p.1.val)

/-- A run of `basis_proj` (custom_ops_wrapper.py:172-189) on the GPU with `nf`
features and `cols` basis functions. -/
def GpuProj {n m : ℕ} (pairs : List (Fin n × Fin m)) (ranges : List ℕ) (nf cols : ℕ)
    (basis : Fin pairs.length → ℕ → ℝ) (f : Fin n → ℕ → ℝ) (wf : Fin m → ℕ → ℕ → ℝ) : Prop :=
  ∃ (W : ℕ) (out : ℕ → ℝ), 0 < W ∧
    ProjFwd (projArgs pairs (fun i => ranges.getD i 0) (fun j (b : Fin cols) => basis j b.val)
      (fun p (ch : Fin nf) => f p ch.val)) W out ∧
    wf = fun c ch b => out ((c.val * nf + ch) * cols + b)

/-! ### layers -/

/-- The end of `_monte_carlo_conv` (MCConv.py:176-194): reshape, transpose and
product with the final weights. -/
def MCLayer.finish (L : MCLayer ℝ) {m : ℕ} (wf : Fin m → ℕ → ℕ → ℝ) (c : Fin m) (o : ℕ) : ℝ :=
  let t := fun (mi x : ℕ) => wf c (x / L.hid) (mi * L.hid + x % L.hid)
  let r := fun (mi o' : ℕ) => ∑ x ∈ Finset.range (L.cin * L.hid), t mi x * L.final mi x o'
  r (o / (L.cout / L.mlps)) (o % (L.cout / L.mlps))

/-- `MCConv.__call__` (MCConv.py:196-278) on the GPU, without a given
neighbourhood. -/
def MCLayer.GpuCall (act : ℝ → ℝ) (Ws : ℕ) (eps : ℝ) (L : MCLayer ℝ) (cin cout : Cloud (Fin (k + 2) → ℝ))
    (radius bw : ℝ) (f : Fin cin.n → ℕ → ℝ) (out : Fin cout.n → ℕ → ℝ) : Prop :=
  ∃ (nb : Pairs cin.n cout.n) (pdf : List ℝ) (wf : Fin cout.n → ℕ → ℕ → ℝ),
    GpuFind Ws (⟨cin, fun _ => radius, eps⟩ : Grid (k + 2) ℝ) cout (fun _ => radius) nb ∧
    GpuPdf Ws (⟨cin, fun _ => radius, eps⟩ : Grid (k + 2) ℝ) (fun _ => radius) (fun _ => bw) nb pdf ∧
    GpuProj (gpuIds (⟨cin, fun _ => radius, eps⟩ : Grid (k + 2) ℝ) nb) nb.ranges L.cin (L.mlps * L.hid)
      (fun j => L.basis act (k + 2) (rowOf (fun d => (cin.pts (List.get _ j).1 d - cout.pts (List.get _ j).2 d) / radius))
        (pdf.getD j.val 0)) f wf ∧
    out = L.finish wf

/-- `PointConv.__call__` (PointConv.py:204-281) on the GPU, without a given
neighbourhood. -/
def PCLayer.GpuCall (act : ℝ → ℝ) (Ws : ℕ) (eps : ℝ) (L : PCLayer ℝ) (cin cout : Cloud (Fin (k + 2) → ℝ))
    (radius bw : ℝ) (f : Fin cin.n → ℕ → ℝ) (out : Fin cout.n → ℕ → ℝ) : Prop :=
  ∃ (nb : Pairs cin.n cout.n) (pdf : List ℝ) (wf : Fin cout.n → ℕ → ℕ → ℝ),
    GpuFind Ws (⟨cin, fun _ => radius, eps⟩ : Grid (k + 2) ℝ) cout (fun _ => radius) nb ∧
    GpuPdf Ws (⟨cin, fun _ => radius, eps⟩ : Grid (k + 2) ℝ) (fun _ => radius) (fun _ => bw) nb pdf ∧
    GpuProj (gpuIds (⟨cin, fun _ => radius, eps⟩ : Grid (k + 2) ℝ) nb) nb.ranges L.cin L.hid
      (fun j b =>
        act (∑ i ∈ Finset.range (k + 2),
            rowOf (fun d => cin.pts (List.get _ j).1 d - cout.pts (List.get _ j).2 d) i * L.axis i b + L.bias b) /
          L.pdfTransform (pdf.getD j.val 0 /
            (segMax (fun i : Fin (gpuIds (⟨cin, fun _ => radius, eps⟩ : Grid (k + 2) ℝ) nb).length => pdf.getD i.val 0)
              (fun i => (List.get _ i).2.val) (List.get _ j).2.val).getD 0)) f wf ∧
    out = fun c o => ∑ x ∈ Finset.range (L.cin * L.hid), wf c (x / L.hid) (x % L.hid) * L.weights x o

/-- `kpProject` on the result of a projection with `nkp + padCols nk` columns
(KPConv.py:219-230, 367-376). -/
def kpReshape {m : ℕ} (cin nk nkp : ℕ) (wf : Fin m → ℕ → ℕ → ℝ) : Except Err (ℕ × (ℕ → ℕ → ℝ)) :=
  let cols := min nk (nkp + padCols nk)
  let flat := fun t : ℕ =>
    if h : t / (cin * cols) < m then wf ⟨t / (cin * cols), h⟩ (t / cols % cin) (t % cols) else 0
  if cin * nk = 0 ∨ (m * (cin * cols)) % (cin * nk) ≠ 0 then .error .invalidArgument
  else .ok (m * (cin * cols) / (cin * nk), fun r x => flat (r * (cin * nk) + x))

/-- `_kernel_offsets` (KPConv.py:317-392) on the GPU. -/
def KPLayer.GpuOffsets {D : ℕ} (L : KPLayer D) (sigma : ℝ) {n m : ℕ} (pairs : List (Fin n × Fin m))
    (ranges : List ℕ) (input : Fin pairs.length → Fin D → ℝ) (f : Fin n → ℕ → ℝ)
    (off : Except Err (Fin pairs.length → ℕ → Fin D → ℝ)) : Prop :=
  match L.offs with
  | none => off = .ok (fun _ _ _ => 0)
  | some wo =>
    if L.nk ≠ L.nkp then off = .error .invalidArgument
    else ∃ wf, GpuProj pairs ranges L.cin (L.nkp + padCols L.nk)
        (fun j => padRow L.nkp (L.weightRow sigma (input j) (fun _ _ => 0))) f wf ∧
      off = match kpReshape L.cin L.nk L.nkp wf with
        | .error e => .error e
        | .ok (_, wf) => .ok (fun j b d =>
            ∑ x ∈ Finset.range (L.cin * L.nk), wf (pairs.get j).2.val x * wo x (b * D + d.val))

/-- `_kp_conv` (KPConv.py:165-232) on the GPU. -/
def KPLayer.GpuConv {D : ℕ} (L : KPLayer D) (sigma : ℝ) {n m : ℕ} (pairs : List (Fin n × Fin m))
    (ranges : List ℕ) (input : Fin pairs.length → Fin D → ℝ) (f : Fin n → ℕ → ℝ)
    (res : Except Err (ℕ × (ℕ → ℕ → ℝ))) : Prop :=
  ∃ off, L.GpuOffsets sigma pairs ranges input f off ∧
    match off with
    | .error e => res = .error e
    | .ok off => ∃ wf, GpuProj pairs ranges L.cin (L.nkp + padCols L.nk)
        (fun j => padRow L.nkp (L.weightRow sigma (input j) (off j))) f wf ∧
      res = match kpReshape L.cin L.nk L.nkp wf with
        | .error e => .error e
        | .ok (rows, wf) => .ok (rows, fun r o => ∑ x ∈ Finset.range (L.cin * L.nk), wf r x * L.weights x o)

/-- `KPConv.__call__` (KPConv.py:234-315) on the GPU, without a given
neighbourhood. -/
def KPLayer.GpuCall (Ws : ℕ) (eps : ℝ) (L : KPLayer (k + 2)) (cin cout : Cloud (Fin (k + 2) → ℝ))
    (radius : ℝ) (influence : Option ℝ) (f : Fin cin.n → ℕ → ℝ) (res : Except Err (ℕ × (ℕ → ℕ → ℝ))) : Prop :=
  ∃ nb : Pairs cin.n cout.n,
    GpuFind Ws (⟨cin, fun _ => radius, eps⟩ : Grid (k + 2) ℝ) cout (fun _ => radius) nb ∧
    L.GpuConv (kpSigma influence radius) (gpuIds (⟨cin, fun _ => radius, eps⟩ : Grid (k + 2) ℝ) nb) nb.ranges
      (fun j d => (cin.pts (List.get _ j).1 d - cout.pts (List.get _ j).2 d) / radius) f res

end
end PC
