import Verif.NetGrad40
import Verif.Train
import Verif.Tutorial

/-!
# Updates of the variables by the optimisers

`optimizer.apply_gradients` with `tf.keras.optimizers.RMSprop(learning_rate=lr_decay)`
(modelnet40.py:485, 517; modelnet40_small.py:347, 383) and with
`tf.keras.optimizers.Adam(learning_rate=lr_decay)` (ModelNet40.ipynb:583, 631).  What the
optimisers compute is Keras' code and trusted to be as written here: all arguments but
the learning rate have the values of the library (`rho = 0.9`, no momentum, not centred;
`beta_1 = 0.9`, `beta_2 = 0.999`; `epsilon = 1e-7`), and the accumulators start with
zeros.  Exact real arithmetic.
-/

set_option linter.unusedVariables false

namespace PC

/-! ### One number of a variable -/

/-- New accumulator of `RMSprop`. -/
def rmsAcc (ρ ms g : ℝ) : ℝ := ρ * ms + (1 - ρ) * g ^ 2

/-- Gradient divided by its scale. -/
noncomputable def rmsDir (ρ ε ms g : ℝ) : ℝ := g / (√(rmsAcc ρ ms g) + ε)

/-- New value of a number `x` of a variable; `lr` is the learning rate. -/
noncomputable def rmsVar (ρ ε lr ms g x : ℝ) : ℝ := x - lr * rmsDir ρ ε ms g

/-- Value and accumulator after `n` updates with learning rates `lr 0, lr 1, …` and
gradients `g 0, g 1, …`. -/
noncomputable def rmsRun (ρ ε : ℝ) (lr g : ℕ → ℝ) (x ms : ℝ) : ℕ → ℝ × ℝ
  | 0 => (x, ms)
  | n + 1 =>
    let s := rmsRun ρ ε lr g x ms n
    (rmsVar ρ ε (lr n) s.2 (g n) s.1, rmsAcc ρ s.2 (g n))

/-- Value and both accumulators of `Adam` after `n` updates. -/
noncomputable def adamRun (β₁ β₂ ε : ℝ) (lr g : ℕ → ℝ) (x : ℝ) : ℕ → ℝ × ℝ × ℝ
  | 0 => (x, 0, 0)
  | n + 1 =>
    let s := adamRun β₁ β₂ ε lr g x n
    let m := β₁ * s.2.1 + (1 - β₁) * g n
    let v := β₂ * s.2.2 + (1 - β₂) * g n ^ 2
    (s.1 - lr n * (√(1 - β₂ ^ (n + 1)) / (1 - β₁ ^ (n + 1))) * m / (√v + ε), m, v)

/-! ### All variables of the networks

The accumulators have the shapes of the variables and are kept in the same structures; the
radii and sizes in them are not used. -/

/-- `Dense` and `Conv1x1`. -/
noncomputable def Lin.rms (ρ ε lr : ℝ) (l A : Lin) {n : ℕ} (g : LinGrads n) : Lin where
  cin := l.cin
  w := fun a o => rmsVar ρ ε lr (A.w a o) (g.w a o) (l.w a o)
  b := fun o => rmsVar ρ ε lr (A.b o) (g.b o) (l.b o)

/-- `BatchNormalization`: mean and variance are no trainable variables. -/
noncomputable def BNorm.rms (ρ ε lr : ℝ) (bn A : BNorm) {n : ℕ} (g : BnGrads n) : BNorm where
  gamma := fun ch => rmsVar ρ ε lr (A.gamma ch) (g.gamma ch) (bn.gamma ch)
  beta := fun ch => rmsVar ρ ε lr (A.beta ch) (g.beta ch) (bn.beta ch)
  mean := bn.mean
  var := bn.var
  eps := bn.eps

/-- Classification head. -/
noncomputable def NetHead.rms (ρ ε lr : ℝ) (h A : NetHead) {n : ℕ} (g : HeadGrads n) : NetHead where
  bn1 := h.bn1.rms ρ ε lr A.bn1 g.bn1
  dense1 := h.dense1.rms ρ ε lr A.dense1 g.dense1
  bn2 := h.bn2.rms ρ ε lr A.bn2 g.bn2
  dense2 := h.dense2.rms ρ ε lr A.dense2 g.dense2

/-- Hidden layers of the kernel networks of `MCConv`. -/
noncomputable def mlpRms (ρ ε lr : ℝ) : List (MlpLayer ℝ) → List (MlpLayer ℝ) → List (MlpLayer ℝ) → List (MlpLayer ℝ)
  | l :: ls, A :: As, g :: gs => ⟨l.size, fun mi i o => rmsVar ρ ε lr (A.w mi i o) (g.w mi i o) (l.w mi i o),
      fun mi o => rmsVar ρ ε lr (A.b mi o) (g.b mi o) (l.b mi o)⟩ :: mlpRms ρ ε lr ls As gs
  | ls, _, _ => ls

/-- Convolutions. -/
noncomputable def NetConv.rms (ρ ε lr : ℝ) {D : ℕ} : NetConv D → NetConv D → ConvGrads → NetConv D
  | .mc L, .mc A, .mc layers final => .mc ⟨L.cin, L.cout, L.mlps, mlpRms ρ ε lr L.layers A.layers layers,
      fun mi t o => rmsVar ρ ε lr (A.final mi t o) (final mi t o) (L.final mi t o)⟩
  | .pc L, .pc A, .pc _ g w => .pc ⟨L.cin, L.hid, fun i b => rmsVar ρ ε lr (A.axis i b) (g.axis i b) (L.axis i b),
      fun b => rmsVar ρ ε lr (A.bias b) (g.bias b) (L.bias b), fun t o => rmsVar ρ ε lr (A.weights t o) (w t o) (L.weights t o),
      fun i => rmsVar ρ ε lr (A.pw1 i) (g.pw1 i) (L.pw1 i), fun i => rmsVar ρ ε lr (A.pb1 i) (g.pb1 i) (L.pb1 i),
      fun i => rmsVar ρ ε lr (A.pw2 i) (g.pw2 i) (L.pw2 i), rmsVar ρ ε lr A.pb2 g.pb2 L.pb2⟩
  | .kp L, .kp A, .kp w => .kp { L with weights := fun t o => rmsVar ρ ε lr (A.weights t o) (w t o) (L.weights t o) }
  | L, _, _ => L

/-- A level of the small network. -/
noncomputable def LevelSmall.rms (ρ ε lr : ℝ) {D : ℕ} (l A : LevelSmall D) (g : LevelGrads) : LevelSmall D where
  conv := l.conv.rms ρ ε lr A.conv g.conv
  bn1 := l.bn1.rms ρ ε lr A.bn1 g.bn1
  lin := l.lin.rms ρ ε lr A.lin g.lin
  bn2 := l.bn2.rms ρ ε lr A.bn2 g.bn2
  sampleRadius := l.sampleRadius
  convRadius := l.convRadius

/-- All levels. -/
noncomputable def levelsRms (ρ ε lr : ℝ) {D : ℕ} : List (LevelSmall D) → List (LevelSmall D) → List LevelGrads → List (LevelSmall D)
  | l :: ls, A :: As, g :: gs => l.rms ρ ε lr A g :: levelsRms ρ ε lr ls As gs
  | ls, _, _ => ls

/-- The small network after `apply_gradients` (modelnet40_small.py:383). -/
noncomputable def NetSmall.rms (ρ ε lr : ℝ) {D : ℕ} (N A : NetSmall D) (g : SmallGrads) : NetSmall D where
  levels := levelsRms ρ ε lr N.levels A.levels g.levels
  last := N.last.rms ρ ε lr A.last g.last
  lastSampleRadius := N.lastSampleRadius
  lastConvRadius := N.lastConvRadius
  head := N.head.rms ρ ε lr A.head g.head

/-- The batch normalisation and the convolution of the skip connection, if there are any (modelnet40.py:237-242). -/
noncomputable def projRms (ρ ε lr : ℝ) {m : ℕ} : Option (BNorm × Lin) → Option (BNorm × Lin) → Option (BnGrads m × LinGrads m) →
    Option (BNorm × Lin)
  | some p, some q, some r => some (p.1.rms ρ ε lr q.1 r.1, p.2.rms ρ ε lr q.2 r.2)
  | p, _, _ => p

/-- A residual block. -/
noncomputable def NetBlock.rms (ρ ε lr : ℝ) {D : ℕ} (b A : NetBlock D) (g : BlockGrads) : NetBlock D where
  bn0 := b.bn0.rms ρ ε lr A.bn0 g.bn0
  down := b.down.rms ρ ε lr A.down g.down
  bn1 := b.bn1.rms ρ ε lr A.bn1 g.bn1
  conv := b.conv.rms ρ ε lr A.conv g.conv
  bn2 := b.bn2.rms ρ ε lr A.bn2 g.bn2
  up := b.up.rms ρ ε lr A.up g.up
  strided := b.strided
  proj := projRms ρ ε lr b.proj A.proj g.proj

/-- All levels after the first. -/
noncomputable def levels40Rms (ρ ε lr : ℝ) {D : ℕ} :
    List (Level40 D) → List (Level40 D) → List (BlockGrads × BlockGrads) → List (Level40 D)
  | l :: ls, A :: As, g :: gs => ⟨l.strided.rms ρ ε lr A.strided g.1, l.block.rms ρ ε lr A.block g.2, l.poolRadius, l.convRadius⟩ ::
      levels40Rms ρ ε lr ls As gs
  | ls, _, _ => ls

/-- The network of modelnet40.py after `apply_gradients` (line 517). -/
noncomputable def Net40.rms (ρ ε lr : ℝ) {D : ℕ} (N A : Net40 D) (g : Grads40) : Net40 D where
  init := N.init.rms ρ ε lr A.init g.init
  block0 := N.block0.rms ρ ε lr A.block0 g.block0
  poolRadius0 := N.poolRadius0
  convRadius0 := N.convRadius0
  levels := levels40Rms ρ ε lr N.levels A.levels g.levels
  head := N.head.rms ρ ε lr A.head g.head

end PC
