import Verif.Pdf
import Verif.Features
import Mathlib.Analysis.SpecialFunctions.Sqrt
import Mathlib.Analysis.SpecialFunctions.Exp

/-!
# Layers: basis projection (`custom_ops_tf.py:423-446`), `MCConv.py`,
`PointConv.py`, `KPConv.py`, `Conv1x1.py`, `Pooling.py`

Feature rows, basis rows and weights are functions on ℕ (channel indices) of
which only the entries below the respective size matter; `tf.reshape` and
`tf.transpose` are written as row-major index arithmetic.
The layers are modelled from the flattened features on: `_flatten_features`
and `_format_output` are modelled in `Features.lean` and applied unchanged by
every layer.
-/

set_option linter.unusedVariables false

namespace PC

/-- `tf.gather(x, i)` with an index that may be out of range (0 there, as on the
GPU; the CPU raises, not modelled). -/
def gatherD {β : Type*} [Zero β] {n : ℕ} (x : Fin n → β) (i : ℕ) : β :=
  if h : i < n then x ⟨i, h⟩ else 0

section
variable {K : Type*} [Field K]

/-- `basis_proj_tf` (custom_ops_tf.py:423-446): features of the neighbours times
basis values, `unsorted_segment_sum` over the centres. -/
def basisProj {ι κ : Type*} {n m nf : ℕ} (pairs : List (Fin n × Fin m))
    (basis : Fin pairs.length → κ → K) (f : Fin nf → ι → K) (c : Fin m) (ch : ι) (b : κ) : K :=
  segSum (fun j : Fin pairs.length => gatherD f (pairs.get j).1.val ch * basis j b)
    (fun j => (pairs.get j).2.val) c.val

/-! ### MCConv -/

/-- One layer of the kernel MLPs: output size, weights `[mlp, in, out]` and
biases `[mlp, 1, out]` (MCConv.py:97-120). -/
structure MlpLayer (K : Type*) where
  size : ℕ
  w : ℕ → ℕ → ℕ → K
  b : ℕ → ℕ → K

/-- The hidden layers of MLP `m` on one input row (MCConv.py:166-169);
`tf.matmul` sums over the size of the previous layer. -/
def mlpEval (act : K → K) (m : ℕ) : ℕ → List (MlpLayer K) → (ℕ → K) → ℕ → K
  | _, [], x => x
  | prev, l :: ls, x =>
    mlpEval act m l.size ls (fun o => act (∑ i ∈ Finset.range prev, x i * l.w m i o + l.b m o))

/-- An `MCConv` layer (MCConv.py:61-135); `hid` is `mlp_size[-1]`. -/
structure MCLayer (K : Type*) where
  cin : ℕ
  cout : ℕ
  mlps : ℕ
  layers : List (MlpLayer K)
  final : ℕ → ℕ → ℕ → K    -- `[mlp, hid * cin, cout // mlps]`

/-- `self._mlp_size[-1]`. -/
def MCLayer.hid (L : MCLayer K) : ℕ := (L.layers.getLast?.map MlpLayer.size).getD 0

/-- The constructor (MCConv.py:83-86, 121-135): the divisibility check, then the
loop variable `cur_layer` is used, which is unbound for an empty `mlp_size`
(Python `UnboundLocalError`, a `NameError`; reported as `typeError` here), and
`num_mlps = 0` raises `ZeroDivisionError` (reported as `valueError`). -/
def MCLayer.new (cin cout mlps : ℕ) (layers : List (MlpLayer K)) (final : ℕ → ℕ → ℕ → K) :
    Except Err (MCLayer K) :=
  if mlps = 0 then .error .valueError
  else if cout % mlps ≠ 0 then .error .valueError
  else if layers = [] then .error .typeError
  else .ok ⟨cin, cout, mlps, layers, final⟩

/-- Row `j` of the basis values (MCConv.py:164-172): column `m * hid + h` is the
output `h` of MLP `m`, divided by the density. -/
def MCLayer.basis (act : K → K) (L : MCLayer K) (D : ℕ) (input : ℕ → K) (pdf : K) (col : ℕ) : K :=
  mlpEval act (col / L.hid) D L.layers input (col % L.hid) / pdf

/-- `_monte_carlo_conv` (MCConv.py:137-194) on neighbour pairs with kernel
inputs and densities per pair. -/
def MCLayer.conv (act : K → K) (L : MCLayer K) (D : ℕ) {n m nf : ℕ} (pairs : List (Fin n × Fin m))
    (input : Fin pairs.length → ℕ → K) (pdf : Fin pairs.length → K) (f : Fin nf → ℕ → K)
    (c : Fin m) (o : ℕ) : K :=
  let wf := basisProj pairs (fun j => L.basis act D (input j) (pdf j)) f
  -- reshape to [-1, cin, mlps, hid], transpose to [mlps, -1, cin, hid], flatten the last two
  let t := fun (mi x : ℕ) => wf c (x / L.hid) (mi * L.hid + x % L.hid)
  let r := fun (mi o' : ℕ) => ∑ x ∈ Finset.range (L.cin * L.hid), t mi x * L.final mi x o'
  -- [mlps, -1, cout/mlps] transposed and flattened to [-1, cout]
  r (o / (L.cout / L.mlps)) (o % (L.cout / L.mlps))

end

/-- A point as a row of a 2-D tensor. -/
def rowOf {K : Type*} [Zero K] {D : ℕ} (p : Fin D → K) (i : ℕ) : K := gatherD p i

section
variable {K : Type*} [Field K] [LinearOrder K] [FloorRing K] {k : ℕ}

/-- Coordinate differences `neighbour - centre` per pair (MCConv.py:263-269,
PointConv.py:267-272, KPConv.py:303-309), gathered from the clouds passed to
the layer with the ids of the neighbourhood. -/
def Nbh.diffs (h : Nbh k K) {n m : ℕ} (ptsIn : Fin n → Fin (k + 2) → K) (ptsOut : Fin m → Fin (k + 2) → K)
    (j : Fin h.originalNeighIds.length) (d : Fin (k + 2)) : K :=
  gatherD ptsIn (h.originalNeighIds.get j).1.val d - gatherD ptsOut (h.originalNeighIds.get j).2.val d

/-- `MCConv.__call__` for a given neighbourhood and the density list
`neigh.get_pdf(...)` (MCConv.py:259-278). -/
def MCLayer.callOn (act : K → K) (L : MCLayer K) (h : Nbh k K) (pdf : List K) {n m : ℕ}
    (ptsIn : Fin n → Fin (k + 2) → K) (ptsOut : Fin m → Fin (k + 2) → K) (radius : K)
    (f : Fin n → ℕ → K) (c : Fin h.sample.n) (o : ℕ) : K :=
  L.conv act (k + 2) h.originalNeighIds (fun j => rowOf (fun d => h.diffs ptsIn ptsOut j d / radius))
    (fun j => pdf.getD j.val 0) f c o

/-- The neighbourhood a layer computes when none is given (MCConv.py:252-258,
PointConv.py:256-262, KPConv.py:294-300). -/
def layerNbh (dev : Device) (eps : K) (cin cout : Cloud (Fin (k + 2) → K)) (radius : K) :
    Except Err (Nbh k K) :=
  Nbh.new dev ⟨cin, fun _ => radius, eps⟩ (fun _ => radius) (some cout)

/-- `MCConv.__call__` without a neighbourhood (MCConv.py:196-278). The row index
of the result is a point of `cout`. -/
def MCLayer.call (ker act : K → K) (dev : Device) (eps : K) (L : MCLayer K)
    (cin cout : Cloud (Fin (k + 2) → K)) (radius bw : K) (f : Fin cin.n → ℕ → K) :
    Except Err (Fin cout.n → ℕ → K) :=
  match layerNbh dev eps cin cout radius with
  | .error e => .error e
  | .ok h =>
    match (h.runGet ker dev none ⟨fun _ => bw, .constant, false⟩).1 with
    | .error e => .error e
    | .ok pdf => .ok (fun c o =>
        if hc : c.val < h.sample.n then L.callOn act h pdf cin.pts cout.pts radius f ⟨c.val, hc⟩ o else 0)

/-! ### PointConv -/

/-- A `PointConv` layer (PointConv.py:58-141). -/
structure PCLayer (K : Type*) where
  cin : ℕ
  hid : ℕ
  axis : ℕ → ℕ → K      -- `[D, hid]`
  bias : ℕ → K
  weights : ℕ → ℕ → K   -- `[hid * cin, cout]`
  pw1 : ℕ → K           -- `[1, 16]`
  pb1 : ℕ → K
  pw2 : ℕ → K           -- `[16, 1]`
  pb2 : K

/-- The transformed density (PointConv.py:172-186): divided by the maximum over
the neighbourhood, one hidden layer of 16 ReLUs, linear output. -/
def PCLayer.pdfTransform (L : PCLayer K) (x : K) : K :=
  ∑ i ∈ Finset.range 16, max (x * L.pw1 i + L.pb1 i) 0 * L.pw2 i + L.pb2

/-- `_point_conv` (PointConv.py:143-202). -/
def PCLayer.conv (act : K → K) (L : PCLayer K) (D : ℕ) {n m nf : ℕ} (pairs : List (Fin n × Fin m))
    (input : Fin pairs.length → ℕ → K) (pdf : Fin pairs.length → K) (f : Fin nf → ℕ → K)
    (c : Fin m) (o : ℕ) : K :=
  let maxPdf := fun s => segMax pdf (fun j => (pairs.get j).2.val) s
  let basis := fun (j : Fin pairs.length) (b : ℕ) =>
    act (∑ i ∈ Finset.range D, input j i * L.axis i b + L.bias b) /
      L.pdfTransform (pdf j / (maxPdf (pairs.get j).2.val).getD 0)
  let wf := basisProj pairs basis f
  ∑ x ∈ Finset.range (L.cin * L.hid), wf c (x / L.hid) (x % L.hid) * L.weights x o

/-- `PointConv.__call__` for a given neighbourhood (PointConv.py:263-281); the
differences are not divided by the radius. -/
def PCLayer.callOn (act : K → K) (L : PCLayer K) (h : Nbh k K) (pdf : List K) {n m : ℕ}
    (ptsIn : Fin n → Fin (k + 2) → K) (ptsOut : Fin m → Fin (k + 2) → K)
    (f : Fin n → ℕ → K) (c : Fin h.sample.n) (o : ℕ) : K :=
  L.conv act (k + 2) h.originalNeighIds (fun j => rowOf (fun d => h.diffs ptsIn ptsOut j d))
    (fun j => pdf.getD j.val 0) f c o

/-- `PointConv.__call__` without a neighbourhood (PointConv.py:204-281). -/
def PCLayer.call (ker act : K → K) (dev : Device) (eps : K) (L : PCLayer K)
    (cin cout : Cloud (Fin (k + 2) → K)) (radius bw : K) (f : Fin cin.n → ℕ → K) :
    Except Err (Fin cout.n → ℕ → K) :=
  match layerNbh dev eps cin cout radius with
  | .error e => .error e
  | .ok h =>
    match (h.runGet ker dev none ⟨fun _ => bw, .constant, false⟩).1 with
    | .error e => .error e
    | .ok pdf => .ok (fun c o =>
        if hc : c.val < h.sample.n then L.callOn act h pdf cin.pts cout.pts f ⟨c.val, hc⟩ o else 0)

end

/-! ### KPConv -/

/-- Kernel interpolation (KPConv.py:29-57). -/
inductive Interp
  | linear | gaussian
  deriving DecidableEq

/-- `_linear_weighting`, `_gaussian_weighting` (KPConv.py:29-57). -/
noncomputable def Interp.weight : Interp → ℝ → ℝ → ℝ
  | .linear, v, sigma => max (1 - v / sigma) 0
  | .gaussian, v, sigma => Real.exp (-(v / (sigma / 3)) ^ 2)

/-- `self._sigma` (KPConv.py:283-288). -/
noncomputable def kpSigma (influence : Option ℝ) (radius : ℝ) : ℝ :=
  match influence with
  | none => 1
  | some i => i / radius

/-- Number of zero columns appended to the kernel weights (KPConv.py:199-213,
350-364). -/
def padCols (nk : ℕ) : ℕ :=
  if nk < 8 then 8 - nk
  else if nk > 8 ∧ nk < 16 then 16 - nk
  else if nk > 16 ∧ nk < 32 then 32 - nk
  else if nk > 32 ∧ nk < 64 then 64 - nk
  else 0

/-- `tf.pad(w, [[0, 0], [0, a]])` on rows with `cols` columns: the entries from
column `cols` on are 0. -/
def padRow {K : Type*} [Zero K] (cols : ℕ) (w : ℕ → K) (b : ℕ) : K := if b < cols then w b else 0

/-- Numbers of basis functions the custom projection op accepts
(basis_proj_ops.cpp:99-103, basis_utils.h:26-27: 8, doubled up to 64). -/
def opBasisOk (cols : ℕ) : Bool := cols == 8 || cols == 16 || cols == 32 || cols == 64

/-- Numbers of features the custom projection op accepts
(basis_proj_ops.cpp:104-108). -/
def opFeaturesOk (cin : ℕ) : Bool := 0 < cin && (cin < 8 || cin % 8 == 0)

/-- Euclidean norm, `tf.linalg.norm`. -/
noncomputable def norm2 {D : ℕ} (x : Fin D → ℝ) : ℝ := Real.sqrt (∑ d, x d ^ 2)

/-- A `KPConv` layer (KPConv.py:94-163).  `nk` is `num_kernel_points`, `kp` the
kernel points, already multiplied by 0.75 (l. 132); their number is `nkp`
(equal to `nk` for the built-in points, arbitrary for
`custom_kernel_points`).  `offs` are the weights of the deformable variant. -/
structure KPLayer (D : ℕ) where
  cin : ℕ
  nk : ℕ
  nkp : ℕ
  kp : ℕ → Fin D → ℝ
  interp : Interp
  weights : ℕ → ℕ → ℝ           -- `[nk * cin, cout]`
  offs : Option (ℕ → ℕ → ℝ)     -- `[nk * cin, nk * D]`

/-- `basis_proj`, slicing off the padding, reshape to `[-1, cin * nk]`
(KPConv.py:219-230, 367-376): number of rows and the entries.  The slice keeps
`min nk (nkp + padding)` columns; the reshape raises unless the number of
elements is a multiple of `cin * nk`. -/
def kpProject {K : Type*} [Field K] {n m nf : ℕ} (cin nk nkp : ℕ) (pairs : List (Fin n × Fin m))
    (w : Fin pairs.length → ℕ → K) (f : Fin nf → ℕ → K) : Except Err (ℕ × (ℕ → ℕ → K)) :=
  let cols := min nk (nkp + padCols nk)
  let wf := basisProj pairs (fun j => padRow nkp (w j)) f
  let flat := fun t : ℕ =>
    if h : t / (cin * cols) < m then wf ⟨t / (cin * cols), h⟩ (t / cols % cin) (t % cols) else 0
  if cin * nk = 0 ∨ (m * (cin * cols)) % (cin * nk) ≠ 0 then .error .invalidArgument
  else .ok (m * (cin * cols) / (cin * nk), fun r x => flat (r * (cin * nk) + x))

/-- Kernel weights of one pair (KPConv.py:191-195): `input` is the scaled
difference, `off` the offsets of the kernel points (zero if rigid). -/
noncomputable def KPLayer.weightRow {D : ℕ} (L : KPLayer D) (sigma : ℝ) (input : Fin D → ℝ)
    (off : ℕ → Fin D → ℝ) (b : ℕ) : ℝ :=
  L.interp.weight (norm2 (fun d => input d - (L.kp b d + off b d))) sigma

/-- `_kernel_offsets` (KPConv.py:317-392), only for `nk = nkp` (otherwise the
final reshape and the addition to the kernel points fail); zero if rigid
(KPConv.py:148-152). -/
noncomputable def KPLayer.offsets {D : ℕ} (L : KPLayer D) (sigma : ℝ) {n m nf : ℕ}
    (pairs : List (Fin n × Fin m)) (input : Fin pairs.length → Fin D → ℝ) (f : Fin nf → ℕ → ℝ) :
    Except Err (Fin pairs.length → ℕ → Fin D → ℝ) :=
  match L.offs with
  | none => .ok (fun _ _ _ => 0)
  | some wo =>
    if L.nk ≠ L.nkp then .error .invalidArgument
    else
      match kpProject L.cin L.nk L.nkp pairs (fun j => L.weightRow sigma (input j) (fun _ _ => 0)) f with
      | .error e => .error e
      | .ok (_, wf) => .ok (fun j b d =>
          ∑ x ∈ Finset.range (L.cin * L.nk), wf (pairs.get j).2.val x * wo x (b * D + d.val))

/-- `_kp_conv` (KPConv.py:165-232): number of rows and entries. -/
noncomputable def KPLayer.conv {D : ℕ} (L : KPLayer D) (sigma : ℝ) {n m nf : ℕ}
    (pairs : List (Fin n × Fin m)) (input : Fin pairs.length → Fin D → ℝ) (f : Fin nf → ℕ → ℝ) :
    Except Err (ℕ × (ℕ → ℕ → ℝ)) :=
  match L.offsets sigma pairs input f with
  | .error e => .error e
  | .ok off =>
    match kpProject L.cin L.nk L.nkp pairs (fun j => L.weightRow sigma (input j) (off j)) f with
    | .error e => .error e
    | .ok (rows, wf) => .ok (rows, fun r o => ∑ x ∈ Finset.range (L.cin * L.nk), wf r x * L.weights x o)

/-- `KPConv.__call__` without a neighbourhood (KPConv.py:234-315). -/
noncomputable def KPLayer.call {k : ℕ} (dev : Device) (eps : ℝ) (L : KPLayer (k + 2))
    (cin cout : Cloud (Fin (k + 2) → ℝ)) (radius : ℝ) (influence : Option ℝ) (f : Fin cin.n → ℕ → ℝ) :
    Except Err (ℕ × (ℕ → ℕ → ℝ)) :=
  match layerNbh dev eps cin cout radius with
  | .error e => .error e
  | .ok h => L.conv (kpSigma influence radius) h.originalNeighIds
      (fun j d => h.diffs cin.pts cout.pts j d / radius) f

/-- `regularization_loss` (KPConv.py:394-429) after a call with the given
neighbour pairs, kernel inputs and features.  `self._offsets` only exists after
a call of a deformable layer (KPConv.py:381-384).  `fmax` is the largest float,
which `unsorted_segment_min` returns for empty segments. -/
noncomputable def KPLayer.regLoss {D : ℕ} (L : KPLayer D) (fmax sigma : ℝ) {n m nf : ℕ}
    (pairs : List (Fin n × Fin m)) (input : Fin pairs.length → Fin D → ℝ) (f : Fin nf → ℕ → ℝ) :
    Except Err ℝ :=
  match L.offs with
  | none => .error .attributeError
  | some wo =>
    match L.offsets sigma pairs input f with
    | .error e => .error e
    | .ok off =>
      match kpProject L.cin L.nk L.nkp pairs (fun j => L.weightRow sigma (input j) (fun _ _ => 0)) f with
      | .error e => .error e
      | .ok (_, wf) =>
        -- l. 409-415: distances to the closest point of each neighbourhood
        let dist := fun (j : Fin pairs.length) (b : ℕ) => norm2 (fun d => input j d - (L.kp b d + off j b d))
        let fit := ∑ c : Fin m, ∑ b ∈ Finset.range L.nk,
          (segMin (fun j => (dist j b / sigma) ^ 2) (fun j => (pairs.get j).2.val) c.val).getD fmax
        -- l. 417-428: pairs of displaced kernel points of one centre
        let pos := fun (c : Fin m) (b : ℕ) (d : Fin D) =>
          L.kp b d + ∑ x ∈ Finset.range (L.cin * L.nk), wf c.val x * wo x (b * D + d.val)
        let rep := ∑ c : Fin m, ∑ b ∈ Finset.range L.nk, ∑ b' ∈ Finset.range L.nk,
          if b = b' then 0 else L.interp.weight (norm2 (fun d => pos c b d - pos c b' d)) sigma
        .ok (fit + rep)

/-- `regularization_loss` after `KPConv.__call__` without a neighbourhood. -/
noncomputable def KPLayer.callRegLoss {k : ℕ} (dev : Device) (eps fmax : ℝ) (L : KPLayer (k + 2))
    (cin cout : Cloud (Fin (k + 2) → ℝ)) (radius : ℝ) (influence : Option ℝ) (f : Fin cin.n → ℕ → ℝ) :
    Except Err ℝ :=
  match layerNbh dev eps cin cout radius with
  | .error e => .error e
  | .ok h => L.regLoss fmax (kpSigma influence radius) h.originalNeighIds
      (fun j d => h.diffs cin.pts cout.pts j d / radius) f

/-! ### Conv1x1 -/

/-- `Conv1x1.__call__` (Conv1x1.py:95-101). -/
def conv1x1 {K : Type*} [Field K] {n : ℕ} (cin : ℕ) (w : ℕ → ℕ → K) (b : ℕ → K) (f : Fin n → ℕ → K)
    (i : Fin n) (o : ℕ) : K :=
  ∑ x ∈ Finset.range cin, f i x * w x o + b o

/-! ### Pooling -/

section
variable {K : Type*} [Field K] [LinearOrder K] [FloorRing K] {k : ℕ}

/-- `unsorted_segment_max` / `unsorted_segment_mean` as pooling operation; the
maximum of an empty segment is the most negative float, `none` here. -/
inductive PoolOp
  | max | mean
  deriving DecidableEq

/-- One output entry of a pooling. -/
def PoolOp.apply (op : PoolOp) {n : ℕ} (x : Fin n → K) (ids : Fin n → ℕ) (s : ℕ) : Option K :=
  match op with
  | .max => segMax x ids s
  | .mean => some (segMean x ids s)

/-- `GlobalMaxPooling`, `GlobalAveragePooling` (Pooling.py:25-100) without
`return_padded`: row `b`, channel `ch`. -/
def globalPool (op : PoolOp) {α : Type*} (c : Cloud α) (f : Fin c.n → ℕ → K) (b : Fin c.B) (ch : ℕ) :
    Option K :=
  op.apply (fun i => f i ch) c.batch b.val

/-- Global pooling with `return_padded=True` (Pooling.py:58-61, 97-100): reshape to
`batch_shape + [-1]`; `tf.concat` raises `ValueError` if no batch shape is set.
The result is the batch shape and the rows in row-major order (the reshape
raises when the number of rows is not the product of the shape). -/
def globalPoolPadded (op : PoolOp) {α : Type*} (o : CloudObj α) (f : Fin o.c.n → ℕ → K) :
    Except Err (List ℕ × List (ℕ → Option K)) :=
  match o.batchShape with
  | none => .error .valueError
  | some sh =>
    if sh.prod = o.c.B then .ok (sh, List.ofFn (fun b : Fin o.c.B => globalPool op o.c f b))
    else .error .invalidArgument

/-- The radius argument of local pooling as passed by the user. -/
inductive RadiusArg (K : Type*)
  | scalar (r : K)
  | vec (l : List K)

/-- Broadcasting of the radius (Pooling.py:145-148): `pooling_radius.shape[0]`
raises `IndexError` for a tensor of rank 0; a vector of length other than 1 is
passed on, and `Grid` (Grid.py:37-41) rejects lengths other than `D` (the
subtraction / division there does not broadcast). -/
def poolRadius (D : ℕ) : RadiusArg K → Except Err (Fin D → K)
  | .scalar _ => .error .indexError
  | .vec [r] => .ok (fun _ => r)
  | .vec l => if h : l.length = D then .ok (fun d => l[d.val]'(by rw [h]; exact d.isLt))
      else .error .invalidArgument

/-- `_LocalPointPooling.__call__` (Pooling.py:103-166) on flattened features. -/
def localPool (op : PoolOp) (dev : Device) (eps : K) (cin cout : Cloud (Fin (k + 2) → K))
    (radius : RadiusArg K) (f : Fin cin.n → ℕ → K) : Except Err (Fin cout.n → ℕ → Option K) :=
  match poolRadius (k + 2) radius with
  | .error e => .error e
  | .ok radii =>
    match Nbh.new dev ⟨cin, radii, eps⟩ radii (some cout) with
    | .error e => .error e
    | .ok h => .ok (fun c ch =>
        op.apply (fun j : Fin h.originalNeighIds.length =>
            gatherD f (h.originalNeighIds.get j).1.val ch)
          (fun j => (h.originalNeighIds.get j).2.val) c.val)

end
end PC
