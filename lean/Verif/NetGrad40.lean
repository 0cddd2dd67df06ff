import Verif.NetGrad
import Verif.PoolGrad

/-!
# Gradients of the classification network of modelnet40.py on the GPU

As `NetGrad`, for the network with residual blocks, maximum pooling on the skip
connections and a global average pooling.  Gradients of a tensor that is used twice (the
input of a block) are added up by the tape.
-/

set_option linter.unusedVariables false

namespace PC

section
variable {k : ℕ}

/-- A gradient with rows `0, 1, …`, as the pooling layers take it. -/
def rowsOf {m : ℕ} (G : Fin m → ℕ → ℝ) (c ch : ℕ) : ℝ := if h : c < m then G ⟨c, h⟩ ch else 0

/-- Backward pass of the first skip layer (modelnet40.py:191-195, 245-248): of
`MaxPooling` (Pooling.py:153-160) with the pairs of a search on the GPU, or of the
identity. -/
def NetBlock.GpuPoolTrain (Ws : ℕ) (eps : ℝ) (b : NetBlock (k + 2)) (cin cout : Cloud (Fin (k + 2) → ℝ)) (radius : ℝ)
    (f : Fin cin.n → ℕ → ℝ) (G : Fin cout.n → ℕ → ℝ) (fG : Fin cin.n → ℕ → ℝ) : Prop :=
  if b.strided then
    ∃ nb : Pairs cin.n cout.n, GpuFind Ws (⟨cin, fun _ => radius, eps⟩ : Grid (k + 2) ℝ) cout (fun _ => radius) nb ∧
      fG = localPoolGrad .max (gpuIds (⟨cin, fun _ => radius, eps⟩ : Grid (k + 2) ℝ) nb) f (rowsOf G)
  else ∃ h : cin.n = cout.n, fG = fun i => G (Fin.cast h i)

/-- Gradients of the variables of a block; `n` and `m` are the numbers of points before and
after it. -/
structure BlockGrads where
  n : ℕ
  m : ℕ
  bn0 : BnGrads n
  down : LinGrads n
  bn1 : BnGrads n
  conv : ConvGrads
  bn2 : BnGrads m
  up : LinGrads m
  proj : Option (BnGrads m × LinGrads m)

/-- Forward and backward pass of `conv_block.__call__` (modelnet40.py:205-257); `cr` and
`co` are the numbers of channels inside and after the block, `out` what the block returns,
`G` its gradient, `fG` the gradient of the features. -/
def NetBlock.GpuTrain (E : NetEnv) (a : NonLin) (Ws : ℕ) (b : NetBlock (k + 2)) (cr co : ℕ) (cin cout : Cloud (Fin (k + 2) → ℝ))
    (convRadius radius : ℝ) (f : Fin cin.n → ℕ → ℝ) (out G : Fin cout.n → ℕ → ℝ) (g : BlockGrads) (fG : Fin cin.n → ℕ → ℝ) : Prop :=
  ∃ (r s sG : Fin cout.n → ℕ → ℝ) (cG fS : Fin cin.n → ℕ → ℝ) (g0 g1 : BnGrads cin.n) (gd : LinGrads cin.n) (gc : ConvGrads)
      (g2 : BnGrads cout.n) (gu : LinGrads cout.n) (gp : Option (BnGrads cout.n × LinGrads cout.n)),
    -- forward
    b.conv.GpuCall E Ws cin cout convRadius (E.bnAct b.bn1 (b.down.apply (E.bnAct b.bn0 f))) (.ok r) ∧
    b.GpuPool E Ws cin cout radius f (.ok s) ∧
    (out = fun i ch => b.up.apply (E.bnAct b.bn2 r) i ch + (match b.proj with
      | none => s
      | some (bn, l) => l.apply (E.bnAct bn s)) i ch) ∧
    -- residual branch
    gu = b.up.grad co (E.bnAct b.bn2 r) G ∧
    g2 = bnActBack b.bn2 r gu.x ∧
    b.conv.GpuTrain a Ws E.eps cr cin cout convRadius (E.bnAct b.bn1 (b.down.apply (E.bnAct b.bn0 f))) g2.x gc cG ∧
    g1 = bnActBack b.bn1 (b.down.apply (E.bnAct b.bn0 f)) cG ∧
    gd = b.down.grad cr (E.bnAct b.bn0 f) g1.x ∧
    g0 = bnActBack b.bn0 f gd.x ∧
    -- skip connection
    (match b.proj with
      | none => gp = none ∧ sG = G
      | some (bn, l) => gp = some (bnActBack bn s (l.grad co (E.bnAct bn s) G).x, l.grad co (E.bnAct bn s) G) ∧
          sG = (bnActBack bn s (l.grad co (E.bnAct bn s) G).x).x) ∧
    b.GpuPoolTrain Ws E.eps cin cout radius f sG fS ∧
    g = ⟨cin.n, cout.n, g0, gd, g1, gc, g2, gu, gp⟩ ∧
    fG = fun i ch => g0.x i ch + fS i ch

/-- Forward and backward pass through the levels after the first (modelnet40.py:377-389)
from the features `f` on: `cs` are the numbers of channels of the two blocks of every
level, `oE` the last cloud, `fE` the features there and `G` their gradient. -/
def gpu40Train (E : NetEnv) (a : NonLin) (Ws : ℕ) : (o : CloudObj (Fin (k + 2) → ℝ)) → (Fin o.c.n → ℕ → ℝ) →
    List (CloudObj (Fin (k + 2) → ℝ)) → List (Level40 (k + 2)) → List ((ℕ × ℕ) × (ℕ × ℕ)) → (oE : CloudObj (Fin (k + 2) → ℝ)) →
    (fE G : Fin oE.c.n → ℕ → ℝ) → List (BlockGrads × BlockGrads) → (Fin o.c.n → ℕ → ℝ) → Prop
  | o, f, [], [], [], oE, fE, G, gs, fG =>
    (⟨oE, fE, G⟩ : (o : CloudObj (Fin (k + 2) → ℝ)) × (Fin o.c.n → ℕ → ℝ) × (Fin o.c.n → ℕ → ℝ)) = ⟨o, f, fG⟩ ∧ gs = []
  | o, f, o' :: os, l :: ls, c :: cs, oE, fE, G, gs, fG =>
    ∃ (f1 f2 G1 G2 : Fin o'.c.n → ℕ → ℝ) (g1 g2 : BlockGrads) (gs' : List (BlockGrads × BlockGrads)),
      l.strided.GpuTrain E a Ws c.1.1 c.1.2 o.c o'.c l.poolRadius l.poolRadius f f1 G1 g1 fG ∧
      l.block.GpuTrain E a Ws c.2.1 c.2.2 o'.c o'.c l.convRadius 0 f1 f2 G2 g2 G1 ∧
      gpu40Train E a Ws o' f2 os ls cs oE fE G gs' G2 ∧ gs = (g1, g2) :: gs'
  | _, _, _, _, _, _, _, _, _, _ => False

/-- Loss of a batch (modelnet40.py:513-515) on the clouds of a hierarchy. -/
def Net40.GpuLoss (E : NetEnv) (Ws : ℕ) (N : Net40 (k + 2)) (C : ℕ) (e : ℝ)
    (clouds : List (CloudObj (Fin (k + 2) → ℝ))) (feats : List (List (ℕ → ℝ))) (labels : List ℕ) (loss : ℝ) : Prop :=
  ∃ logits, N.GpuLogits E Ws clouds feats (.ok logits) ∧ labels.length = logits.length ∧
    loss = batchLoss (sparseCE C e) labels (logits.map (softmaxRow C))

/-- Gradients of all variables of the network. -/
structure Grads40 where
  init : ConvGrads
  block0 : BlockGrads
  levels : List (BlockGrads × BlockGrads)
  n : ℕ
  head : HeadGrads n

/-- Global average pooling (Pooling.py:25-62). -/
noncomputable def pooled40 (o : CloudObj (Fin (k + 2) → ℝ)) (f : Fin o.c.n → ℕ → ℝ) : Fin o.c.B → ℕ → ℝ :=
  fun b ch => (globalPool .mean o.c f b ch).getD 0

/-- A training step up to the gradients (modelnet40.py:512-516); that
`model.trainable_variables` contains the variables of all layers is trusted; `c0` is the number of
channels of the first convolution, `b0` those of the first block, `cs` those of the levels,
`c1` that between the dense layers. -/
def Net40.GpuTrainStep (E : NetEnv) (a : NonLin) (Ws : ℕ) (N : Net40 (k + 2)) (c0 : ℕ) (b0 : ℕ × ℕ) (cs : List ((ℕ × ℕ) × (ℕ × ℕ)))
    (c1 C : ℕ) (e : ℝ) (m1 m2 : ∀ n, Fin n → ℕ → ℝ) (clouds : List (CloudObj (Fin (k + 2) → ℝ))) (feats : List (List (ℕ → ℝ)))
    (labels : List ℕ) (loss : ℝ) (g : Grads40) : Prop :=
  match clouds with
  | _ :: o1 :: os =>
    match net40Init o1 feats with
    | .error _ => False
    | .ok f0 => ∃ (f1 f2 G1 G2 fG : Fin o1.c.n → ℕ → ℝ) (oE : CloudObj (Fin (k + 2) → ℝ)) (fE : Fin oE.c.n → ℕ → ℝ)
        (lab : Fin oE.c.B → ℕ) (gi : ConvGrads) (g0 : BlockGrads) (gs : List (BlockGrads × BlockGrads)) (hg : HeadGrads oE.c.B),
        N.init.GpuCall E Ws o1.c o1.c N.convRadius0 f0 (.ok f1) ∧
        N.block0.GpuTrain E a Ws b0.1 b0.2 o1.c o1.c N.convRadius0 0 f1 f2 G2 g0 G1 ∧
        gpu40Train E a Ws o1 f2 os N.levels cs oE fE (globalPoolGrad .mean oE.c fE (rowsOf hg.bn1.x)) gs G2 ∧
        labels = List.ofFn lab ∧ loss = trainLoss C e lab (N.head.run40 E (pooled40 oE fE)) ∧
        hg = N.head.back40 c1 C (m1 _) (m2 _) (pooled40 oE fE) (trainLossGrad C e lab (N.head.run40 E (pooled40 oE fE))) ∧
        N.init.GpuTrain a Ws E.eps c0 o1.c o1.c N.convRadius0 f0 G1 gi fG ∧
        g = ⟨gi, g0, gs, oE.c.B, hg⟩
  | _ => False

end
end PC
