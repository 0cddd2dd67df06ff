import Verif.GpuNet
import Verif.PcGrad
import Verif.HeadGrad

/-!
# Gradients of the small classification network on the GPU

One training step (modelnet40_small.py:374-383) on the levels of a hierarchy: the forward
pass, recorded by the gradient tape, the loss, and the backward pass through all layers.
The points of the levels do not depend on trainable variables; gradients with respect to
points are computed by the layers but not used.  Exact real arithmetic.  Every layer is
called once, so that no gradients of a variable have to be added up.
-/

set_option linter.unusedVariables false

namespace PC

section
variable {k : ℕ}

/-- Gradients of the trainable variables of a convolution: hidden layers and final weights
of `MCConv`; the two networks and the weights of `PointConv`; the weights of a rigid
`KPConv`. -/
inductive ConvGrads
  | mc (layers : List (MlpLayer ℝ)) (final : ℕ → ℕ → ℕ → ℝ)
  | pc (P : ℕ) (net : PcGrads P) (weights : ℕ → ℕ → ℝ)
  | kp (weights : ℕ → ℕ → ℝ)

/-- Backward pass of a convolution called as in `NetConv.GpuCall`, for the gradient `G` of
its output with `co` channels: gradients of its variables and of its features (the kernel
points of `KPConv` are no variables, KPConv.py:122-131; deformable layers are left out). -/
def NetConv.GpuTrain (a : NonLin) (Ws : ℕ) (eps : ℝ) (L : NetConv (k + 2)) (co : ℕ) (cin cout : Cloud (Fin (k + 2) → ℝ))
    (radius : ℝ) (f : Fin cin.n → ℕ → ℝ) (G : Fin cout.n → ℕ → ℝ) (g : ConvGrads) (fG : Fin cin.n → ℕ → ℝ) : Prop :=
  match L with
  | .mc L => ∃ ids mG xG wG, L.GpuBackward a.fwd Ws eps cin cout radius (1 / 5) f G ids mG xG fG wG ∧
      g = .mc (L.mlpBackward a (k + 2) (fun j : Fin ids.length =>
        rowOf (fun d => (cin.pts (ids.get j).1 d - cout.pts (ids.get j).2 d) / radius)) mG).1 wG
  | .pc L => ∃ ids net xG yG wG, L.GpuTrain a Ws eps co cin cout radius (1 / 5) f G ids net xG yG fG wG ∧
      g = .pc ids.length net wG
  | .kp L => ∃ ids bG wG, L.GpuBackward Ws eps co cin cout radius none f G ids bG fG wG ∧ g = .kp wG

/-- Gradient of batch normalisation and `LeakyReLU` (modelnet40_small.py:177-182, 240-249). -/
noncomputable def bnActBack (bn : BNorm) {n : ℕ} (f G : Fin n → ℕ → ℝ) : BnGrads n :=
  bn.grad f (actBack (bn.apply true f) G)

/-- Gradient of `tf.gather` along the rows: the gradients of the rows that were taken from
row `p` are added up. -/
def gatherBack {n m : ℕ} (σ : Fin n → Fin m) (G : Fin n → ℕ → ℝ) (p : Fin m) (ch : ℕ) : ℝ :=
  ∑ i, if σ i = p then G i ch else 0

/-- Gradients of the variables of a level of the small network; `n` is the number of points. -/
structure LevelGrads where
  n : ℕ
  conv : ConvGrads
  bn1 : BnGrads n
  lin : LinGrads n
  bn2 : BnGrads n

/-- Forward and backward pass through the loop (modelnet40_small.py:232-252) from the
features `f` on: `cs` are the numbers of channels after the convolution and after the
`Conv1x1` of every level, `cl` that of the last convolution, `out` the rows the loop
returns, `G` their gradient; then the gradients of the levels, of the last convolution and
of `f`. -/
def gpuSmallTrain (E : NetEnv) (a : NonLin) (Ws : ℕ) (N : NetSmall (k + 2)) (cl : ℕ) :
    (o : CloudObj (Fin (k + 2) → ℝ)) → (Fin o.c.n → ℕ → ℝ) → List (CloudObj (Fin (k + 2) → ℝ)) →
    List (LevelSmall (k + 2)) → List (ℕ × ℕ) → (n : ℕ) → (out G : Fin n → ℕ → ℝ) →
    List LevelGrads → ConvGrads → (Fin o.c.n → ℕ → ℝ) → Prop
  | o, f, [o'], [], [], n, out, G, gs, gl, fG => ∃ r G', N.last.GpuCall E Ws o.c o'.c N.lastConvRadius f (.ok r) ∧
      (⟨n, out, G⟩ : (n : ℕ) × (Fin n → ℕ → ℝ) × (Fin n → ℕ → ℝ)) = ⟨o'.c.n, r ∘ o'.c.sortedIndicesBatch, G'⟩ ∧
      N.last.GpuTrain a Ws E.eps cl o.c o'.c N.lastConvRadius f (gatherBack o'.c.sortedIndicesBatch G') gl fG ∧ gs = []
  | o, f, o' :: os, l :: ls, c :: cs, n, out, G, gs, gl, fG => ∃ (r G' : Fin o'.c.n → ℕ → ℝ) (gc : ConvGrads)
      (gs' : List LevelGrads) (g1 g3 : BnGrads o'.c.n) (g2 : LinGrads o'.c.n),
      -- forward and the later levels
      l.conv.GpuCall E Ws o.c o'.c l.convRadius f (.ok r) ∧
      gpuSmallTrain E a Ws N cl o' (E.bnAct l.bn2 (l.lin.apply (E.bnAct l.bn1 r))) os ls cs n out G gs' gl G' ∧
      -- backward
      g3 = bnActBack l.bn2 (l.lin.apply (E.bnAct l.bn1 r)) G' ∧
      g2 = l.lin.grad c.2 (E.bnAct l.bn1 r) g3.x ∧
      g1 = bnActBack l.bn1 r g2.x ∧
      l.conv.GpuTrain a Ws E.eps c.1 o.c o'.c l.convRadius f g1.x gc fG ∧
      gs = ⟨o'.c.n, gc, g1, g2, g3⟩ :: gs'
  | _, _, _, _, _, _, _, _, _, _, _ => False

/-- Loss of a batch (modelnet40_small.py:377-379) on the clouds of a hierarchy; `C` classes,
`e` the constant of the clipping. -/
def NetSmall.GpuLoss (E : NetEnv) (Ws : ℕ) (N : NetSmall (k + 2)) (C : ℕ) (e : ℝ)
    (clouds : List (CloudObj (Fin (k + 2) → ℝ))) (feats : List (List (ℕ → ℝ))) (labels : List ℕ) (loss : ℝ) : Prop :=
  ∃ logits, N.GpuLogits E Ws clouds feats (.ok logits) ∧ labels.length = logits.length ∧
    loss = batchLoss (sparseCE C e) labels (logits.map (softmaxRow C))

/-- Gradients of all variables of the small network. -/
structure SmallGrads where
  levels : List LevelGrads
  last : ConvGrads
  n : ℕ
  head : HeadGrads n

/-- A training step up to the gradients (modelnet40_small.py:374-381); that
`model.trainable_variables` contains the variables of all layers is trusted.  `m1`, `m2`
are the factors of the dropout layers. -/
def NetSmall.GpuTrainStep (E : NetEnv) (a : NonLin) (Ws : ℕ) (N : NetSmall (k + 2)) (cs : List (ℕ × ℕ)) (cl c1 C : ℕ) (e : ℝ)
    (m1 m2 : ∀ n, Fin n → ℕ → ℝ) (clouds : List (CloudObj (Fin (k + 2) → ℝ))) (feats : List (List (ℕ → ℝ)))
    (labels : List ℕ) (loss : ℝ) (g : SmallGrads) : Prop :=
  match clouds with
  | o :: os =>
    match (o.flattenFeatures feats).1 with
    | .error _ => False
    | .ok f0 => ∃ (n : ℕ) (out : Fin n → ℕ → ℝ) (lab : Fin n → ℕ) (gs : List LevelGrads) (gl : ConvGrads)
        (fG : Fin o.c.n → ℕ → ℝ) (hg : HeadGrads n),
        labels = List.ofFn lab ∧ loss = trainLoss C e lab (N.head.runSmall E out) ∧
        hg = N.head.backSmall c1 C (m1 n) (m2 n) out (trainLossGrad C e lab (N.head.runSmall E out)) ∧
        gpuSmallTrain E a Ws N cl o f0 os N.levels cs n out hg.bn1.x gs gl fG ∧
        g = ⟨gs, gl, n, hg⟩
  | _ => False

end
end PC
