import Verif.Pdf
import Verif.CudaScan
import Mathlib.Analysis.SpecialFunctions.Exp
import Mathlib.Analysis.SpecialFunctions.Sqrt

/-!
# CUDA density estimation and its gradient

`custom_ops/tfg_custom_ops/compute_pdf/cc/kernels/compute_pdf_kernels.cu.cc`
(in the following: pdf_kernels), `compute_pdf/cc/ops/compute_pdf_ops.cpp`
(pdf_ops), `pylib/pc/custom_ops/custom_ops_wrapper.py:136-169`.

Floats are real numbers; indices and counters are unbounded naturals.
Arrays are functions on ℕ of which only the entries below their size matter.
-/

set_option linter.unusedVariables false

namespace PC

section
variable {K : Type*} [Zero K] [Add K] [Sub K]

/-- One step of the compensated summation (pdf_kernels:122-125, 208-211;
basis_proj_grads_kernels.cu.cc:118-124, 137-142): state is
`(accumulator, accumulated error)`, `fl` is the rounding after each operation. -/
def kahanStepFl (fl : K → K) (s : K × K) (x : K) : K × K :=
  let auxVar1 := fl (x - s.2)
  let auxVar2 := fl (s.1 + auxVar1)
  (auxVar2, fl (fl (auxVar2 - s.1) - auxVar1))

/-- The summation loop with rounding, from accumulator and error zero. -/
def kahanFl (fl : K → K) (l : List K) : K × K := l.foldl (kahanStepFl fl) (0, 0)

/-- One step in exact arithmetic. -/
def kahanStep (s : K × K) (x : K) : K × K := kahanStepFl id s x

/-- The summation loop in exact arithmetic. -/
def kahan (l : List K) : K × K := l.foldl kahanStep (0, 0)

/-- Memory after atomic additions `(address, value)`. -/
def runAtomics {A : Type*} [DecidableEq A] (m : A → K) (tr : List (A × K)) : A → K :=
  tr.foldl (fun m w => Function.update m w.1 (m w.1 + w.2)) m

end

/-- Inputs of the operations `compute_pdf_with_pt_grads` and
`compute_pdf_pt_grads` (pdf_ops:85-104, 170-192) after their shape checks:
number of points, points, neighbour pairs, ends of the neighbourhoods, inverse
bandwidth and inverse radii. -/
structure PdfIn (D : ℕ) where
  n : ℕ
  pts : ℕ → Fin D → ℝ
  nb : ℕ → ℕ × ℕ
  ends : ℕ → ℕ
  invBw : Fin D → ℝ
  invRad : Fin D → ℝ

/-- Begin of the neighbourhood (pdf_kernels:96). -/
def rangeStart (ends : ℕ → ℕ) (i : ℕ) : ℕ := if 0 < i then ends (i - 1) else 0

/-- Positions of the neighbours of point `i` (pdf_kernels:95-98, 109-112):
`rangePts.x + i` for `i < numPts`. -/
def rangeIdx (ends : ℕ → ℕ) (i : ℕ) : List ℕ :=
  (List.range (ends i - rangeStart ends i)).map (fun k => rangeStart ends i + k)

/-- `bandwidth_struct` (pdf_kernels:38-56): mode 0 is constant, mode 1 is called
with the number of samples. -/
noncomputable def pdfInvBw {D : ℕ} (mode : ℕ) (invBw : Fin D → ℝ) (numSamples : ℕ) : Fin D → ℝ :=
  if mode = 0 then invBw else if mode = 1 then fun _ => Real.sqrt numSamples else 0

/-- The literal `0.39894228f`. -/
noncomputable def pdfConst : ℝ := 0.39894228

/-- `(pPts[neighIndex.x] - curPt)*curBandwidth*pInvRadii[0]` (pdf_kernels:114, 199). -/
noncomputable def pdfDiff {D : ℕ} (I : PdfIn D) (w : Fin D → ℝ) (i j : ℕ) (d : Fin D) : ℝ :=
  (I.pts (I.nb j).1 d - I.pts i d) * w d * I.invRad d

/-- `localPDF` (pdf_kernels:115-119, 200-204), starting from `ini`. -/
noncomputable def pdfLocal {D : ℕ} (I : PdfIn D) (w : Fin D → ℝ) (ini : ℝ) (i j : ℕ) : ℝ :=
  (List.finRange D).foldl (fun acc d =>
    acc * (w d * Real.exp (pdfDiff I w i j d * pdfDiff I w i j d * (-0.5)) * pdfConst)) ini

/-- Body of the loop of `compute_pdf_gpu_kernel` for point `i`
(pdf_kernels:88-130): one write of the output. -/
noncomputable def pdfBody {D : ℕ} (I : PdfIn D) (mode i : ℕ) : List (ℕ × ℝ) :=
  let w := pdfInvBw mode I.invBw I.n
  [(i, (kahan ((rangeIdx I.ends i).map (pdfLocal I w 1 i))).1)]

/-- Number of threads of both launches (pdf_kernels:238-250, 301-311):
`B = 2 * warpSize`, `W = numMP * numBlocks`. -/
def pdfThreads (n B W : ℕ) : ℕ := launchBlocks W (execBlocks n B) * B

/-- A run of `compute_pdf_gpu` (pdf_kernels:222-278) on an output array holding
arbitrary values before. -/
def PdfFwd {D : ℕ} (I : PdfIn D) (mode B W : ℕ) (out : ℕ → ℝ) : Prop :=
  ∃ (old : ℕ → ℝ) (tr : List (ℕ × ℝ)),
    Interleave (strideThreads (pdfThreads I.n B W) I.n (pdfBody I mode)) tr ∧ out = runWrites old tr

/-- Body of the loop of `compute_pdf_grads_gpu_kernel` for point `i`
(pdf_kernels:171-219): the atomic additions, `g` are the gradients of the
densities. -/
noncomputable def pdfGradBody {D : ℕ} (I : PdfIn D) (mode : ℕ) (g : ℕ → ℝ) (i : ℕ) :
    List ((ℕ × Fin D) × ℝ) :=
  let w := pdfInvBw mode I.invBw I.n
  let diffVec := fun (j : ℕ) (d : Fin D) =>
    pdfDiff I w i j d * w d * I.invRad d * pdfLocal I w (g i) i j
  (rangeIdx I.ends i).flatMap (fun j =>
    (List.finRange D).map (fun d => (((I.nb j).1, d), - diffVec j d))) ++
  (List.finRange D).map (fun d => ((i, d), (kahan ((rangeIdx I.ends i).map (fun j => diffVec j d))).1))

/-- A run of `compute_pdf_grads_gpu` (pdf_kernels:281-345); the output is set to
zero before. -/
def PdfGrad {D : ℕ} (I : PdfIn D) (mode B W : ℕ) (g : ℕ → ℝ) (out : ℕ × Fin D → ℝ) : Prop :=
  ∃ tr : List ((ℕ × Fin D) × ℝ),
    Interleave (strideThreads (pdfThreads I.n B W) I.n (pdfGradBody I mode g)) tr ∧
    out = runAtomics (fun _ => 0) tr

/-- `KDEMode.value` (Neighborhood.py:45-49). -/
def KDEMode.value : KDEMode → ℕ
  | .constant => 0
  | .numPoints => 1
  | .noPdf => 2

/-- The arguments the wrapper `compute_pdf` passes to the operation
(custom_ops_wrapper.py:150-156): sorted points, pairs, ends, reciprocals. -/
noncomputable def pdfArgs {D n m : ℕ} (pts : Fin n → Fin D → ℝ) (pairs : List (Fin n × Fin m))
    (ends : ℕ → ℕ) (bw radii : Fin D → ℝ) : PdfIn D where
  n := n
  pts := fun i => gatherPt pts i
  nb := fun j => ((pairs[j]?.map (fun p => (p.1.val, p.2.val))).getD (0, 0))
  ends := ends
  invBw := fun d => (bw d)⁻¹
  invRad := fun d => (radii d)⁻¹

end PC
