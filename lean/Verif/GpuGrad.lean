import Verif.GpuLayer

/-!
# Gradients of the layers on the GPU

A training step differentiates the output of a layer with respect to its
features, its weights and the positions of the points.  TensorFlow does this for
its own operations; for `basis_proj` and `compute_pdf` it calls the gradient
operations registered in `custom_ops_wrapper.py:157-168, 191-198`.  The search, the keys
and the table are registered as not differentiable (44, 67, 105).  Here the
operations of the backward pass of `MCConv.py`, `PointConv.py` and `KPConv.py` are
composed; the rules for TensorFlow's own operations (`matmul`, `reshape`,
`transpose`, `gather`, division) are those of the library.
-/

set_option linter.unusedVariables false

namespace PC

section
variable {k : ℕ}

/-- A tensor of shape `[m, nf, cols]` in memory (row-major); 0 outside. -/
def flat3 {m : ℕ} (nf cols : ℕ) (g : Fin m → ℕ → ℕ → ℝ) (i : ℕ) : ℝ :=
  if h : i / (nf * cols) < m then g ⟨i / (nf * cols), h⟩ (i / cols % nf) (i % cols) else 0

/-- A run of `_basis_proj_grad` (custom_ops_wrapper.py:191-198) for the upstream
gradient `g` of the result: gradients of the basis values (position in the list of
pairs, column) and of the features. -/
def GpuProjGrad {n m : ℕ} (pairs : List (Fin n × Fin m)) (ranges : List ℕ) (nf cols : ℕ)
    (basis : Fin pairs.length → ℕ → ℝ) (f : Fin n → ℕ → ℝ) (g : Fin m → ℕ → ℕ → ℝ)
    (bG : ℕ → ℕ → ℝ) (fG : Fin n → ℕ → ℝ) : Prop :=
  ∃ (W : ℕ) (out : ℕ ⊕ ℕ → ℝ), 0 < W ∧
    ProjGrad (projArgs pairs (fun i => ranges.getD i 0) (fun j (b : Fin cols) => basis j b.val)
      (fun p (ch : Fin nf) => f p ch.val)) (flat3 nf cols g) W out ∧
    bG = (fun j b => out (Sum.inl (j * cols + b))) ∧
    fG = fun p ch => out (Sum.inr (p.val * nf + ch))

/-! ### MCConv -/

/-- Gradient of the weighted features: backwards through the product with the
final weights, the transpositions and the reshapes (MCConv.py:180-194). -/
def MCLayer.gradWf (L : MCLayer ℝ) {m : ℕ} (G : Fin m → ℕ → ℝ) (c : Fin m) (ch b : ℕ) : ℝ :=
  ∑ o ∈ Finset.range (L.cout / L.mlps),
    G c (b / L.hid * (L.cout / L.mlps) + o) * L.final (b / L.hid) (ch * L.hid + b % L.hid) o

/-- Gradient of the final weights (MCConv.py:187-191). -/
def MCLayer.gradFinal (L : MCLayer ℝ) {m : ℕ} (wf : Fin m → ℕ → ℕ → ℝ) (G : Fin m → ℕ → ℝ) (mi x o : ℕ) : ℝ :=
  ∑ c : Fin m, wf c (x / L.hid) (mi * L.hid + x % L.hid) * G c (mi * (L.cout / L.mlps) + o)

/-- Gradient of the densities of the points (sorted positions): division
(MCConv.py:170-172), then `tf.gather` (Neighborhood.py:288).  `M` are the outputs of
the MLPs, `bG` the gradients of the basis values. -/
noncomputable def mcGradPdf {n m : ℕ} (pairs : List (Fin n × Fin m)) (cols : ℕ) (M : Fin pairs.length → ℕ → ℝ)
    (pdf : List ℝ) (bG : ℕ → ℕ → ℝ) (i : ℕ) : ℝ :=
  ∑ j : Fin pairs.length, if (pairs.get j).1.val = i then
    -(∑ b ∈ Finset.range cols, bG j.val b * M j b) / pdf.getD j.val 0 ^ 2 else 0

/-- Forward and backward pass of `MCConv` on the GPU for the upstream gradient `G`
of the output: the pairs, the gradients of the outputs of the kernel MLPs (by
position in the list of pairs and column), of the points through the densities, of
the features and of the final weights. -/
def MCLayer.GpuBackward (act : ℝ → ℝ) (Ws : ℕ) (eps : ℝ) (L : MCLayer ℝ) (cin cout : Cloud (Fin (k + 2) → ℝ))
    (radius bw : ℝ) (f : Fin cin.n → ℕ → ℝ) (G : Fin cout.n → ℕ → ℝ) (ids : List (Fin cin.n × Fin cout.n))
    (mG : ℕ → ℕ → ℝ) (xG : Fin cin.n → Fin (k + 2) → ℝ) (fG : Fin cin.n → ℕ → ℝ) (wG : ℕ → ℕ → ℕ → ℝ) : Prop :=
  ∃ (nb : Pairs cin.n cout.n)
    (self : Pairs cin.n (⟨cin, fun _ => radius, eps⟩ : Grid (k + 2) ℝ).cuSorted.n)
    (B W B' W' : ℕ) (pdfPts : ℕ → ℝ) (wf : Fin cout.n → ℕ → ℕ → ℝ) (bG : ℕ → ℕ → ℝ) (ptG : ℕ × Fin (k + 2) → ℝ),
    -- forward
    GpuFind Ws (⟨cin, fun _ => radius, eps⟩ : Grid (k + 2) ℝ) cout (fun _ => radius) nb ∧
    ids = gpuIds (⟨cin, fun _ => radius, eps⟩ : Grid (k + 2) ℝ) nb ∧
    GpuFind Ws (⟨cin, fun _ => radius, eps⟩ : Grid (k + 2) ℝ) (⟨cin, fun _ => radius, eps⟩ : Grid (k + 2) ℝ).cuSorted
      (fun _ => radius) self ∧
    0 < B ∧ 0 < W ∧ 0 < B' ∧ 0 < W' ∧
    PdfFwd (pdfArgs (⟨cin, fun _ => radius, eps⟩ : Grid (k + 2) ℝ).cuSorted.pts self.pairs
      (fun i => self.ranges.getD i 0) (fun _ => bw) (fun _ => radius)) KDEMode.constant.value B W pdfPts ∧
    GpuProj ids nb.ranges L.cin (L.mlps * L.hid)
      (fun j => L.basis act (k + 2) (rowOf (fun d => (cin.pts (ids.get j).1 d - cout.pts (ids.get j).2 d) / radius))
        ((nb.pairs.map (fun p => pdfPts p.1.val)).getD j.val 0)) f wf ∧
    -- backward
    GpuProjGrad ids nb.ranges L.cin (L.mlps * L.hid)
      (fun j => L.basis act (k + 2) (rowOf (fun d => (cin.pts (ids.get j).1 d - cout.pts (ids.get j).2 d) / radius))
        ((nb.pairs.map (fun p => pdfPts p.1.val)).getD j.val 0)) f (L.gradWf G) bG fG ∧
    wG = L.gradFinal wf G ∧
    mG = (fun j b => bG j b / (nb.pairs.map (fun p => pdfPts p.1.val)).getD j 0) ∧
    PdfGrad (pdfArgs (⟨cin, fun _ => radius, eps⟩ : Grid (k + 2) ℝ).cuSorted.pts self.pairs
      (fun i => self.ranges.getD i 0) (fun _ => bw) (fun _ => radius)) KDEMode.constant.value B' W'
      (mcGradPdf nb.pairs (L.mlps * L.hid)
        (fun j b => mlpEval act (b / L.hid) (k + 2) L.layers
          (rowOf (fun d => (cin.pts (cuPerm (⟨cin, fun _ => radius, eps⟩ : Grid (k + 2) ℝ) (nb.pairs.get j).1) d -
            cout.pts (nb.pairs.get j).2 d) / radius)) (b % L.hid))
        (nb.pairs.map (fun p => pdfPts p.1.val)) bG) ptG ∧
    xG = fun p d => ptG (((cuPerm (⟨cin, fun _ => radius, eps⟩ : Grid (k + 2) ℝ)).symm p).val, d)

/-! ### PointConv and KPConv -/

/-- Gradient of the weighted features (PointConv.py:196-200). -/
def PCLayer.gradWf (L : PCLayer ℝ) (numOut : ℕ) {m : ℕ} (G : Fin m → ℕ → ℝ) (c : Fin m) (ch b : ℕ) : ℝ :=
  ∑ o ∈ Finset.range numOut, G c o * L.weights (ch * L.hid + b) o

/-- Gradient of the weights (PointConv.py:196-200). -/
def PCLayer.gradWeights (L : PCLayer ℝ) {m : ℕ} (wf : Fin m → ℕ → ℕ → ℝ) (G : Fin m → ℕ → ℝ) (x o : ℕ) : ℝ :=
  ∑ c : Fin m, wf c (x / L.hid) (x % L.hid) * G c o

/-- Forward and backward pass of `PointConv` on the GPU up to the basis values: the
pairs and the gradients of the basis values (PointConv.py:188), of the features and
of the weights.  `numOut` is the number of output features. -/
def PCLayer.GpuBackward (act : ℝ → ℝ) (Ws : ℕ) (eps : ℝ) (L : PCLayer ℝ) (numOut : ℕ)
    (cin cout : Cloud (Fin (k + 2) → ℝ)) (radius bw : ℝ) (f : Fin cin.n → ℕ → ℝ) (G : Fin cout.n → ℕ → ℝ)
    (ids : List (Fin cin.n × Fin cout.n)) (bG : ℕ → ℕ → ℝ) (fG : Fin cin.n → ℕ → ℝ) (wG : ℕ → ℕ → ℝ) : Prop :=
  ∃ (nb : Pairs cin.n cout.n) (pdf : List ℝ) (wf : Fin cout.n → ℕ → ℕ → ℝ),
    GpuFind Ws (⟨cin, fun _ => radius, eps⟩ : Grid (k + 2) ℝ) cout (fun _ => radius) nb ∧
    ids = gpuIds (⟨cin, fun _ => radius, eps⟩ : Grid (k + 2) ℝ) nb ∧
    GpuPdf Ws (⟨cin, fun _ => radius, eps⟩ : Grid (k + 2) ℝ) (fun _ => radius) (fun _ => bw) nb pdf ∧
    GpuProj ids nb.ranges L.cin L.hid
      (fun j b =>
        act (∑ i ∈ Finset.range (k + 2), rowOf (fun d => cin.pts (ids.get j).1 d - cout.pts (ids.get j).2 d) i *
            L.axis i b + L.bias b) /
          L.pdfTransform (pdf.getD j.val 0 /
            (segMax (fun i : Fin ids.length => pdf.getD i.val 0) (fun i => (ids.get i).2.val) (ids.get j).2.val).getD 0)) f wf ∧
    GpuProjGrad ids nb.ranges L.cin L.hid
      (fun j b =>
        act (∑ i ∈ Finset.range (k + 2), rowOf (fun d => cin.pts (ids.get j).1 d - cout.pts (ids.get j).2 d) i *
            L.axis i b + L.bias b) /
          L.pdfTransform (pdf.getD j.val 0 /
            (segMax (fun i : Fin ids.length => pdf.getD i.val 0) (fun i => (ids.get i).2.val) (ids.get j).2.val).getD 0)) f
      (L.gradWf numOut G) bG fG ∧
    wG = L.gradWeights wf G

/-- Gradient of the weighted features (KPConv.py:219-230): the columns sliced off
after the projection get 0. -/
def KPLayer.gradWf {D : ℕ} (L : KPLayer D) (numOut : ℕ) {m : ℕ} (G : Fin m → ℕ → ℝ) (c : Fin m) (ch b : ℕ) : ℝ :=
  if b < L.nk then ∑ o ∈ Finset.range numOut, G c o * L.weights (ch * L.nk + b) o else 0

/-- Gradient of the weights (KPConv.py:226-230). -/
def KPLayer.gradWeights {D : ℕ} (L : KPLayer D) {m : ℕ} (wf : Fin m → ℕ → ℕ → ℝ) (G : Fin m → ℕ → ℝ) (x o : ℕ) : ℝ :=
  ∑ c : Fin m, wf c (x / L.nk) (x % L.nk) * G c o

/-- Forward and backward pass of a rigid `KPConv` on the GPU up to the kernel point
weights: the pairs and the gradients of the weights of the kernel points (before
the padding, KPConv.py:205-217), of the features and of the weights. -/
def KPLayer.GpuBackward (Ws : ℕ) (eps : ℝ) (L : KPLayer (k + 2)) (numOut : ℕ)
    (cin cout : Cloud (Fin (k + 2) → ℝ)) (radius : ℝ) (influence : Option ℝ) (f : Fin cin.n → ℕ → ℝ)
    (G : Fin cout.n → ℕ → ℝ) (ids : List (Fin cin.n × Fin cout.n)) (bG : ℕ → ℕ → ℝ) (fG : Fin cin.n → ℕ → ℝ)
    (wG : ℕ → ℕ → ℝ) : Prop :=
  ∃ (nb : Pairs cin.n cout.n) (wf : Fin cout.n → ℕ → ℕ → ℝ),
    GpuFind Ws (⟨cin, fun _ => radius, eps⟩ : Grid (k + 2) ℝ) cout (fun _ => radius) nb ∧
    ids = gpuIds (⟨cin, fun _ => radius, eps⟩ : Grid (k + 2) ℝ) nb ∧
    GpuProj ids nb.ranges L.cin (L.nkp + padCols L.nk)
      (fun j => padRow L.nkp (L.weightRow (kpSigma influence radius)
        (fun d => (cin.pts (ids.get j).1 d - cout.pts (ids.get j).2 d) / radius) (fun _ _ => 0))) f wf ∧
    GpuProjGrad ids nb.ranges L.cin (L.nkp + padCols L.nk)
      (fun j => padRow L.nkp (L.weightRow (kpSigma influence radius)
        (fun d => (cin.pts (ids.get j).1 d - cout.pts (ids.get j).2 d) / radius) (fun _ _ => 0))) f
      (L.gradWf numOut G) bG fG ∧
    wG = L.gradWeights wf G

end
end PC
