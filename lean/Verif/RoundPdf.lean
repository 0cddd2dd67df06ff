import Verif.Rounded

/-!
# Density estimation in floating point numbers with underflow

`custom_ops/tfg_custom_ops/compute_pdf/cc/kernels/compute_pdf_kernels.cu.cc` (pdf_kernels) as modelled in `Rounded.lean`,
called by `compute_pdf` (custom_ops_wrapper.py:134-155) with rounded reciprocals.  Overflow is not modelled: the exponents
of the numbers are bounded from below only.
-/

set_option linter.unusedVariables false

namespace PC

/-- Arithmetic with rounding `fl` on the numbers `F`: sums and differences of two numbers have a relative error of at most
`u`, also where they underflow; every other result has in addition an absolute error of at most `η`. -/
structure FloatArith (fl : ℝ → ℝ) (F : ℝ → Prop) (u η : ℝ) : Prop where
  zero : F 0
  mem : ∀ x, F (fl x)
  add : ∀ a b, F a → F b → |fl (a + b) - (a + b)| ≤ u * |a + b|
  sub : ∀ a b, F a → F b → |fl (a - b) - (a - b)| ≤ u * |a - b|
  gen : ∀ x, |fl x - x| ≤ u * |x| + η

/-- Rounding to nearest in single precision with gradual underflow: 24 bits, the last one not below `2 ^ (-149)`. -/
noncomputable def fl32 (x : ℝ) : ℝ :=
  round (x * (2 : ℝ) ^ (-max (Int.log 2 |x| - 23) (-149))) * (2 : ℝ) ^ (max (Int.log 2 |x| - 23) (-149))

/-- The multiples of the smallest positive number; all numbers of single precision are. -/
def IsMul32 (x : ℝ) : Prop := ∃ m : ℤ, x = m * (2 : ℝ) ^ (-149 : ℤ)

noncomputable instance {fl : ℝ → ℝ} : One (Rounded fl) := ⟨Rounded.mk 1⟩

/-- The call of `compute_pdf_with_pt_grads` by the wrapper (custom_ops_wrapper.py:149-155) in rounded arithmetic: sorted
points, pairs, ends of the neighbourhoods, rounded reciprocals of bandwidth and radii; `fexp`, `froot` and `fconst` are the
exponential function and the root of the device and the literal of the kernel (pdf_kernels:54, 115, 116), the literal
`-0.5f` is exact. -/
noncomputable def pdfArgsFl (fl fexp : ℝ → ℝ) (froot : ℕ → ℝ) (fconst : ℝ) {D n m : ℕ} (pts : Fin n → Fin D → ℝ)
    (pairs : List (Fin n × Fin m)) (ends : ℕ → ℕ) (bw radii : Fin D → ℝ) : PdfInA D (Rounded fl) where
  n := n
  pts := fun i d => Rounded.mk (gatherPt pts i d)
  nb := fun j => ((pairs[j]?.map (fun p => (p.1.val, p.2.val))).getD (0, 0))
  ends := ends
  invBw := fun d => Rounded.mk (fl (1 / bw d))
  invRad := fun d => Rounded.mk (fl (1 / radii d))
  exp := fun x => Rounded.mk (fexp x.val)
  root := fun n => Rounded.mk (froot n)
  mhalf := Rounded.mk (-0.5)
  const := Rounded.mk fconst


end PC
