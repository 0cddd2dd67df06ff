import Verif.GpuTut
import Verif.NetGrad40

/-!
# Gradients of the network of the tutorial on the GPU (pylib/notebooks/ModelNet40.ipynb)

One training step (ModelNet40.ipynb:624-630) on the levels of a hierarchy: forward pass,
loss and backward pass, as in `NetGrad.lean` for the small network.  Exact real
arithmetic; every layer is called once.
-/

set_option linter.unusedVariables false

namespace PC

section
variable {k : ℕ}

/-- Backward pass of the head (ModelNet40.ipynb:539-544) in training; `c1` is the number of
features between the dense layers, `C` the number of classes, `G` the gradient of the
logits. -/
noncomputable def NetHead.backTut (h : NetHead) (c1 C : ℕ) {n : ℕ} (f G : Fin n → ℕ → ℝ) : HeadGrads n :=
  let d1 : Fin n → ℕ → ℝ := fun i ch => kerasLrelu (h.bn1.apply true f i ch)
  let z := h.dense1.apply d1
  let d2 : Fin n → ℕ → ℝ := fun i ch => kerasLrelu (h.bn2.apply true z i ch)
  let g4 := h.dense2.grad C d2 G
  let g3 := bnActBack h.bn2 z g4.x
  let g2 := h.dense1.grad c1 d1 g3.x
  let g1 := bnActBack h.bn1 f g2.x
  ⟨g1, g2, g3, g4⟩

/-- Gradients of the variables of a convolution before the last and of its normalisation; `n`
is the number of points. -/
structure TutLevelGrads where
  n : ℕ
  conv : ConvGrads
  bn : BnGrads n

/-- Forward and backward pass through the loop (ModelNet40.ipynb:529-536) from the features
`f` on: `cs` are the numbers of channels after the convolutions before the last, `cl` that
of the last one, `fE` the rows the loop returns, `G` their gradient; then the gradients of
the levels, of the last convolution and of `f`. -/
def gpuTutTrain (E : NetEnv) (a : NonLin) (Ws : ℕ) (N : NetTut (k + 2)) (cl : ℕ) :
    (o : CloudObj (Fin (k + 2) → ℝ)) → (Fin o.c.n → ℕ → ℝ) → List (CloudObj (Fin (k + 2) → ℝ)) →
    List (LevelTut (k + 2)) → List ℕ → (oE : CloudObj (Fin (k + 2) → ℝ)) → (fE G : Fin oE.c.n → ℕ → ℝ) →
    List TutLevelGrads → ConvGrads → (Fin o.c.n → ℕ → ℝ) → Prop
  | o, f, [o'], [], [], oE, fE, G, gs, gl, fG => ∃ r G', N.last.GpuCall E Ws o.c o'.c N.lastConvRadius f (.ok r) ∧
      (⟨oE, fE, G⟩ : (o : CloudObj (Fin (k + 2) → ℝ)) × (Fin o.c.n → ℕ → ℝ) × (Fin o.c.n → ℕ → ℝ)) = ⟨o', r, G'⟩ ∧
      N.last.GpuTrain a Ws E.eps cl o.c o'.c N.lastConvRadius f G' gl fG ∧ gs = []
  | o, f, o' :: os, l :: ls, c :: cs, oE, fE, G, gs, gl, fG => ∃ (r G' : Fin o'.c.n → ℕ → ℝ) (gc : ConvGrads)
      (gs' : List TutLevelGrads) (g1 : BnGrads o'.c.n),
      -- forward and the later levels
      l.conv.GpuCall E Ws o.c o'.c l.convRadius f (.ok r) ∧
      gpuTutTrain E a Ws N cl o' (E.bnAct l.bn r) os ls cs oE fE G gs' gl G' ∧
      -- backward
      g1 = bnActBack l.bn r G' ∧
      l.conv.GpuTrain a Ws E.eps c o.c o'.c l.convRadius f g1.x gc fG ∧
      gs = ⟨o'.c.n, gc, g1⟩ :: gs'
  | _, _, _, _, _, _, _, _, _, _, _ => False

/-- Loss of a batch (ModelNet40.ipynb:625-627) on the clouds of a hierarchy; `C` classes,
`e` the constant of the clipping. -/
def NetTut.GpuLoss (E : NetEnv) (Ws : ℕ) (N : NetTut (k + 2)) (C : ℕ) (e : ℝ)
    (clouds : List (CloudObj (Fin (k + 2) → ℝ))) (feats : List (List (ℕ → ℝ))) (labels : List ℕ) (loss : ℝ) : Prop :=
  ∃ logits, N.GpuLogits E Ws clouds feats (.ok logits) ∧ labels.length = logits.length ∧
    loss = batchLoss (sparseCE C e) labels (logits.map (softmaxRow C))

/-- Gradients of all variables of the network. -/
structure TutGrads where
  levels : List TutLevelGrads
  last : ConvGrads
  n : ℕ
  head : HeadGrads n

/-- A training step up to the gradients (ModelNet40.ipynb:624-629); that
`model.trainable_variables` contains the variables of all layers is trusted. -/
def NetTut.GpuTrainStep (E : NetEnv) (a : NonLin) (Ws : ℕ) (N : NetTut (k + 2)) (cs : List ℕ) (cl c1 C : ℕ) (e : ℝ)
    (clouds : List (CloudObj (Fin (k + 2) → ℝ))) (feats : List (List (ℕ → ℝ)))
    (labels : List ℕ) (loss : ℝ) (g : TutGrads) : Prop :=
  match clouds with
  | o :: os =>
    match (o.flattenFeatures feats).1 with
    | .error _ => False
    | .ok f0 => ∃ (oE : CloudObj (Fin (k + 2) → ℝ)) (fE : Fin oE.c.n → ℕ → ℝ) (lab : Fin oE.c.B → ℕ)
        (gs : List TutLevelGrads) (gl : ConvGrads) (fG : Fin o.c.n → ℕ → ℝ) (hg : HeadGrads oE.c.B),
        labels = List.ofFn lab ∧ loss = trainLoss C e lab (N.head.runTut E (pooled40 oE fE)) ∧
        hg = N.head.backTut c1 C (pooled40 oE fE) (trainLossGrad C e lab (N.head.runTut E (pooled40 oE fE))) ∧
        gpuTutTrain E a Ws N cl o f0 os N.levels cs oE fE (globalPoolGrad .mean oE.c fE (rowsOf hg.bn1.x)) gs gl fG ∧
        g = ⟨gs, gl, oE.c.B, hg⟩
  | _ => False

end
end PC
