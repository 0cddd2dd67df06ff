import Verif.CudaProj
import Verif.FloatSearch

/-!
# Kernels in rounded arithmetic

`CudaProj.lean` models the basis projection for any type of numbers with the operations the kernels use.  Here are
numbers whose operations are rounded, and the density estimation (`CudaPdf.lean`) for any such type.
-/

set_option linter.unusedVariables false

namespace PC

/-- Numbers with rounded operations: the exact result, then `fl`. -/
def Rounded (fl : ℝ → ℝ) : Type := ℝ

namespace Rounded
variable {fl : ℝ → ℝ}

/-- The number as a real number and back. -/
def val (x : Rounded fl) : ℝ := x
def mk (x : ℝ) : Rounded fl := x

noncomputable instance : Zero (Rounded fl) := ⟨mk 0⟩
noncomputable instance : Add (Rounded fl) := ⟨fun a b => mk (fl (a.val + b.val))⟩
noncomputable instance : Sub (Rounded fl) := ⟨fun a b => mk (fl (a.val - b.val))⟩
noncomputable instance : Mul (Rounded fl) := ⟨fun a b => mk (fl (a.val * b.val))⟩

end Rounded

/-! ### density estimation in any arithmetic -/

section
variable {α : Type*} [Zero α] [One α] [Add α] [Sub α] [Mul α] {D : ℕ}

/-- Inputs of `compute_pdf_with_pt_grads` as in `PdfIn`, with the functions and constants of the arithmetic:
`exp`, the root of the number of samples, the literals `-0.5f` and `0.39894228f`. -/
structure PdfInA (D : ℕ) (α : Type*) where
  n : ℕ
  pts : ℕ → Fin D → α
  nb : ℕ → ℕ × ℕ
  ends : ℕ → ℕ
  invBw : Fin D → α
  invRad : Fin D → α
  exp : α → α
  root : ℕ → α
  mhalf : α
  const : α

/-- `bandwidth_struct` (pdf_kernels:38-56). -/
def pdfInvBwA (I : PdfInA D α) (mode : ℕ) : Fin D → α :=
  if mode = 0 then I.invBw else if mode = 1 then fun _ => I.root I.n else fun _ => 0

/-- `(pPts[neighIndex.x] - curPt)*curBandwidth*pInvRadii[0]` (pdf_kernels:114, 199). -/
def pdfDiffA (I : PdfInA D α) (w : Fin D → α) (i j : ℕ) (d : Fin D) : α :=
  (I.pts (I.nb j).1 d - I.pts i d) * w d * I.invRad d

/-- `localPDF` (pdf_kernels:115-119). -/
def pdfLocalA (I : PdfInA D α) (w : Fin D → α) (ini : α) (i j : ℕ) : α :=
  (List.finRange D).foldl (fun acc d =>
    acc * (w d * I.exp (pdfDiffA I w i j d * pdfDiffA I w i j d * I.mhalf) * I.const)) ini

/-- The loop of `compute_pdf_gpu_kernel` for point `i` (pdf_kernels:88-130). -/
def pdfBodyA (I : PdfInA D α) (mode i : ℕ) : List (ℕ × α) :=
  [(i, (kahan ((rangeIdx I.ends i).map (pdfLocalA I (pdfInvBwA I mode) 1 i))).1)]

/-- A run of `compute_pdf_gpu` (pdf_kernels:222-278). -/
def PdfFwdA (I : PdfInA D α) (mode B W : ℕ) (out : ℕ → α) : Prop :=
  ∃ (old : ℕ → α) (tr : List (ℕ × α)),
    Interleave (strideThreads (pdfThreads I.n B W) I.n (pdfBodyA I mode)) tr ∧ out = runWrites old tr

end

/-- The inputs of the exact model. -/
noncomputable def PdfIn.toA {D : ℕ} (I : PdfIn D) : PdfInA D ℝ :=
  ⟨I.n, I.pts, I.nb, I.ends, I.invBw, I.invRad, Real.exp, fun n => Real.sqrt n, -0.5, pdfConst⟩

/-- The same inputs as real numbers. -/
def ProjIn.exact {fl : ℝ → ℝ} (I : ProjIn (Rounded fl)) : ProjIn ℝ :=
  ⟨I.S, I.nf, I.K, fun i => (I.basis i).val, fun i => (I.feats i).val, I.nb, I.ends⟩

/-- Their absolute values. -/
noncomputable def ProjIn.absolute {fl : ℝ → ℝ} (I : ProjIn (Rounded fl)) : ProjIn ℝ :=
  ⟨I.S, I.nf, I.K, fun i => |(I.basis i).val|, fun i => |(I.feats i).val|, I.nb, I.ends⟩

/-! ### search and projection -/

/-- Projection of features on the neighbours found by a search with result `res` for `S` samples: the values of the
`K` basis functions for a pair are `basis point sample`. -/
def projAfterSearch {α : Type*} (S nf K : ℕ) (res : StoreMem) (basis : ℕ → ℕ → ℕ → α) (feats : ℕ → α) : ProjIn α where
  S := S
  nf := nf
  K := K
  basis := fun i => basis (res.out (i / K)).1 (res.out (i / K)).2 (i % K)
  feats := feats
  nb := res.out
  ends := res.cnt

end PC
