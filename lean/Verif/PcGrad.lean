import Verif.MlpGrad
import Verif.PoolGrad

/-!
# Gradients of the kernel network and of the density network of `PointConv`

TensorFlow's gradient functions of the operations in `PointConv.py:166-188` and
`267-272`, composed in reverse order, and the gradient operation of
`compute_pdf`.  Exact real arithmetic.
-/

set_option linter.unusedVariables false

namespace PC

/-- What the backward pass through the basis values returns: gradients of the
parameters of the two networks, of the kernel inputs and of the densities of the
pairs. -/
structure PcGrads (P : ℕ) where
  axis : ℕ → ℕ → ℝ
  bias : ℕ → ℝ
  pw1 : ℕ → ℝ
  pb1 : ℕ → ℝ
  pw2 : ℕ → ℝ
  pb2 : ℝ
  input : Fin P → ℕ → ℝ
  pdf : Fin P → ℝ

/-- Backward pass through `basis_neighs / cur_pdf` (PointConv.py:166-188) for the
gradient `bG[pair][column]` of the quotient; `seg` is the column of the centres,
`q` the densities of the pairs.  `RealDivGrad` returns `grad / y` and
`grad * (-x / y / y)`; the divisor `cur_pdf` has one column, along which its
gradient is summed.  The gradient of `tf.gather` (line 178) adds up the gradients of
the pairs of a centre, which `unsorted_segment_max` (line 174) passes on to the
densities that attain the maximum. -/
noncomputable def PCLayer.basisBackward (a : NonLin) (L : PCLayer ℝ) (D : ℕ) {P : ℕ} (seg : Fin P → ℕ)
    (input : Fin P → ℕ → ℝ) (q : Fin P → ℝ) (bG : ℕ → ℕ → ℝ) : PcGrads P :=
  let z := fun j b => ∑ i ∈ Finset.range D, input j i * L.axis i b + L.bias b
  let nm := fun j => (segMax q seg (seg j)).getD 0
  let u := fun j => q j / nm j
  let h := fun j i => u j * L.pw1 i + L.pb1 i
  let t := fun j => L.pdfTransform (u j)
  let gz := fun j b => bG j.val b / t j * a.grad (z j b)
  let gt := fun j => ∑ b ∈ Finset.range L.hid, bG j.val b * (-a.fwd (z j b) / t j / t j)
  let gh := fun j i => gt j * L.pw2 i * NonLin.relu.grad (h j i)
  let gu := fun j => ∑ i ∈ Finset.range 16, gh j i * L.pw1 i
  let gm := fun j => gu j * (-q j / nm j / nm j)
  { axis := fun i b => ∑ j, input j i * gz j b
    bias := fun b => ∑ j, gz j b
    pw1 := fun i => ∑ j, u j * gh j i
    pb1 := fun i => ∑ j, gh j i
    pw2 := fun i => ∑ j, max (h j i) 0 * gt j
    pb2 := ∑ j, gt j
    input := fun j i => ∑ b ∈ Finset.range L.hid, gz j b * L.axis i b
    pdf := fun j => gu j / nm j + PoolOp.max.grad q seg (fun s => ∑ j, if seg j = s then gm j else 0) j }

/-- Gradient of the densities of the points (sorted positions): `tf.gather`
(Neighborhood.py:287) adds up the gradients of the pairs of a point. -/
noncomputable def gatherPdfGrad {n m : ℕ} (pairs : List (Fin n × Fin m)) (g : ℕ → ℝ) (i : ℕ) : ℝ :=
  ∑ j : Fin pairs.length, if (pairs.get j).1.val = i then g j.val else 0

variable {k : ℕ}

/-- Forward and backward pass of `PointConv` on the GPU for the upstream gradient
`G` of the output, as far as the parameters and the points: the pairs, the
gradients of the two networks, of the points of both clouds, of the features and of
the final weights.  The kernel inputs are not divided by the radius
(PointConv.py:272). -/
def PCLayer.GpuTrain (a : NonLin) (Ws : ℕ) (eps : ℝ) (L : PCLayer ℝ) (numOut : ℕ)
    (cin cout : Cloud (Fin (k + 2) → ℝ)) (radius bw : ℝ) (f : Fin cin.n → ℕ → ℝ) (G : Fin cout.n → ℕ → ℝ)
    (ids : List (Fin cin.n × Fin cout.n)) (g : PcGrads ids.length) (xG : Fin cin.n → Fin (k + 2) → ℝ)
    (yG : Fin cout.n → Fin (k + 2) → ℝ) (fG : Fin cin.n → ℕ → ℝ) (wG : ℕ → ℕ → ℝ) : Prop :=
  ∃ (nb : Pairs cin.n cout.n)
    (self : Pairs cin.n (⟨cin, fun _ => radius, eps⟩ : Grid (k + 2) ℝ).cuSorted.n)
    (B W B' W' : ℕ) (pdfPts : ℕ → ℝ) (wf : Fin cout.n → ℕ → ℕ → ℝ) (bG : ℕ → ℕ → ℝ) (ptG : ℕ × Fin (k + 2) → ℝ)
    (gIn : Fin cin.n → Fin (k + 2) → ℝ) (q : Fin ids.length → ℝ) (input : Fin ids.length → ℕ → ℝ)
    (basis : Fin ids.length → ℕ → ℝ),
    -- forward
    GpuFind Ws (⟨cin, fun _ => radius, eps⟩ : Grid (k + 2) ℝ) cout (fun _ => radius) nb ∧
    ids = gpuIds (⟨cin, fun _ => radius, eps⟩ : Grid (k + 2) ℝ) nb ∧
    GpuFind Ws (⟨cin, fun _ => radius, eps⟩ : Grid (k + 2) ℝ) (⟨cin, fun _ => radius, eps⟩ : Grid (k + 2) ℝ).cuSorted
      (fun _ => radius) self ∧
    0 < B ∧ 0 < W ∧ 0 < B' ∧ 0 < W' ∧
    PdfFwd (pdfArgs (⟨cin, fun _ => radius, eps⟩ : Grid (k + 2) ℝ).cuSorted.pts self.pairs
      (fun i => self.ranges.getD i 0) (fun _ => bw) (fun _ => radius)) KDEMode.constant.value B W pdfPts ∧
    q = (fun j => (nb.pairs.map (fun p => pdfPts p.1.val)).getD j.val 0) ∧
    input = (fun j => rowOf (fun d => cin.pts (ids.get j).1 d - cout.pts (ids.get j).2 d)) ∧
    basis = (fun j b => a.fwd (∑ i ∈ Finset.range (k + 2), input j i * L.axis i b + L.bias b) /
      L.pdfTransform (q j / (segMax q (fun i => (ids.get i).2.val) (ids.get j).2.val).getD 0)) ∧
    GpuProj ids nb.ranges L.cin L.hid basis f wf ∧
    -- backward
    GpuProjGrad ids nb.ranges L.cin L.hid basis f (L.gradWf numOut G) bG fG ∧
    wG = L.gradWeights wf G ∧
    g = L.basisBackward a (k + 2) (fun i => (ids.get i).2.val) input q bG ∧
    PdfGrad (pdfArgs (⟨cin, fun _ => radius, eps⟩ : Grid (k + 2) ℝ).cuSorted.pts self.pairs
      (fun i => self.ranges.getD i 0) (fun _ => bw) (fun _ => radius)) KDEMode.constant.value B' W'
      (gatherPdfGrad nb.pairs (fun j => if h : j < ids.length then g.pdf ⟨j, h⟩ else 0)) ptG ∧
    (gIn, yG) = inputBackward ids 1 g.input ∧
    xG = fun p d => ptG (((cuPerm (⟨cin, fun _ => radius, eps⟩ : Grid (k + 2) ℝ)).symm p).val, d) + gIn p d

end PC
