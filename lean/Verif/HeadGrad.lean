import Verif.Metrics
import Mathlib.Analysis.SpecialFunctions.Log.Basic

/-!
# Gradients of the loss and of the classification head

The training loops (modelnet40.py:510-517, modelnet40_small.py:374-383) run eagerly, so
that `SparseCategoricalCrossentropy` gets probabilities, not the softmax operation it
could replace.  The functions of Keras and TensorFlow used there and in the heads
(modelnet40.py:392-400, modelnet40_small.py:253-261) with their gradient functions, in
exact real arithmetic.
-/

set_option linter.unusedVariables false

namespace PC

/-! ### The loss (modelnet40.py:487, 514-515, modelnet40_small.py:349, 378-379) -/

/-- `clip_by_value(output, epsilon, 1 - epsilon)` of Keras: a minimum, then a maximum. -/
noncomputable def clipProb (e x : ℝ) : ℝ := max (min x (1 - e)) e

/-- `SparseCategoricalCrossentropy` of one row `p` of probabilities with label `y`:
clipped, logarithm, then `sparse_softmax_cross_entropy_with_logits`. -/
noncomputable def sparseCE (C : ℕ) (e : ℝ) (p : ℕ → ℝ) (y : ℕ) : ℝ :=
  Real.log (∑ j ∈ Finset.range C, Real.exp (Real.log (clipProb e (p j)))) - Real.log (clipProb e (p y))

/-- Loss of a batch of logits (modelnet40.py:514-515). -/
noncomputable def trainLoss (C : ℕ) (e : ℝ) {B : ℕ} (labels : Fin B → ℕ) (logits : Fin B → ℕ → ℝ) : ℝ :=
  batchLoss (sparseCE C e) (List.ofFn labels) ((List.ofFn logits).map (softmaxRow C))

/-- Gradient of one row of the loss with respect to the logits `x`, for the gradient
`g` of its value: the cross entropy returns softmax minus one-hot, `LogGrad` multiplies
with the reciprocal, the gradient functions of `minimum` and `maximum` pass the gradient
on where the first argument is chosen, `SoftmaxGrad` is `(g - sum(g * p)) * p`. -/
noncomputable def ceGrad (C : ℕ) (e : ℝ) (x : ℕ → ℝ) (y : ℕ) (g : ℝ) (i : ℕ) : ℝ :=
  let p := softmaxRow C x
  let gl := fun j => g * (softmaxRow C (fun j => Real.log (clipProb e (p j))) j - if j = y then 1 else 0)
  let gc := fun j => gl j * (1 / clipProb e (p j))
  let gp := fun j => if p j ≤ 1 - e ∧ e ≤ min (p j) (1 - e) then gc j else 0
  (gp i - ∑ j ∈ Finset.range C, gp j * p j) * p i

/-- Gradient of the loss of the batch: every row gets `1 / B`. -/
noncomputable def trainLossGrad (C : ℕ) (e : ℝ) {B : ℕ} (labels : Fin B → ℕ) (logits : Fin B → ℕ → ℝ) (b : Fin B) (i : ℕ) : ℝ :=
  ceGrad C e (logits b) (labels b) (1 / (B : ℝ)) i

/-! ### Layers -/

/-- `tf.keras.layers.LeakyReLU()` with the default slope (modelnet40_small.py:178). -/
noncomputable def kerasLrelu (x : ℝ) : ℝ := max (3 / 10 * x) x

/-- `LeakyReluGrad`: tests the argument. -/
noncomputable def kerasLreluGrad (x : ℝ) : ℝ := if 0 < x then 1 else 3 / 10

/-- Gradients of `Conv1x1` (Conv1x1.py:95-101) and `Dense` with `co` outputs: of the
weights, of the bias and of the features. -/
structure LinGrads (n : ℕ) where
  w : ℕ → ℕ → ℝ
  b : ℕ → ℝ
  x : Fin n → ℕ → ℝ

/-- Gradient functions of `matmul` and of the sum with a broadcast bias. -/
def Lin.grad (l : Lin) (co : ℕ) {n : ℕ} (f G : Fin n → ℕ → ℝ) : LinGrads n where
  w := fun a o => ∑ i, f i a * G i o
  b := fun o => ∑ i, G i o
  x := fun i a => ∑ o ∈ Finset.range co, G i o * l.w a o

/-- Gradients of a batch normalisation: of `gamma`, of `beta` and of the features. -/
structure BnGrads (n : ℕ) where
  gamma : ℕ → ℝ
  beta : ℕ → ℝ
  x : Fin n → ℕ → ℝ

/-- Gradient of `BatchNormalization` in training, which computes (for matrices)
`mean = reduce_mean(x)`, `var = reduce_mean((x - stop_gradient(mean)) ** 2)`,
`inv = rsqrt(var + eps) * gamma` and `x * inv + (beta - mean * inv)`. -/
noncomputable def BNorm.grad (bn : BNorm) {n : ℕ} (f G : Fin n → ℕ → ℝ) : BnGrads n :=
  let mu := fun ch => (∑ j, f j ch) / (n : ℝ)
  let va := fun ch => (∑ j, (f j ch - mu ch) ^ 2) / (n : ℝ)
  let r := fun ch => 1 / Real.sqrt (va ch + bn.eps)
  let inv := fun ch => r ch * bn.gamma ch
  let gInv := fun ch => ∑ j, G j ch * f j ch - mu ch * ∑ j, G j ch
  let gMu := fun ch => -(inv ch * ∑ j, G j ch)
  let gVa := fun ch => gInv ch * bn.gamma ch * (-(1 / 2) * r ch ^ 3)
  { gamma := fun ch => gInv ch * r ch
    beta := fun ch => ∑ j, G j ch
    x := fun i ch => G i ch * inv ch + gMu ch / n + gVa ch / n * (2 * (f i ch - mu ch)) }

/-- Gradient of `LeakyReLU` applied to `z`. -/
noncomputable def actBack {n : ℕ} (z G : Fin n → ℕ → ℝ) (i : Fin n) (ch : ℕ) : ℝ := G i ch * kerasLreluGrad (z i ch)

/-- Dropout in training, and its gradient: product with the factors drawn, `0` or
`1 / (1 - rate)`. -/
def maskMul {n : ℕ} (m f : Fin n → ℕ → ℝ) (i : Fin n) (ch : ℕ) : ℝ := f i ch * m i ch

/-! ### The heads -/

/-- Gradients of a head: of its layers and of its input features. -/
structure HeadGrads (n : ℕ) where
  bn1 : BnGrads n
  dense1 : LinGrads n
  bn2 : BnGrads n
  dense2 : LinGrads n

/-- Backward pass of modelnet40_small.py:253-261 in training with dropout factors `m1`,
`m2`; `c1` is the number of features between the dense layers, `C` the number of
classes, `G` the gradient of the logits. -/
noncomputable def NetHead.backSmall (h : NetHead) (c1 C : ℕ) {n : ℕ} (m1 m2 f G : Fin n → ℕ → ℝ) : HeadGrads n :=
  let a1 := h.bn1.apply true f
  let d1 := maskMul m1 (fun i ch => kerasLrelu (a1 i ch))
  let z := h.dense1.apply d1
  let a2 := h.bn2.apply true z
  let d2 := maskMul m2 (fun i ch => kerasLrelu (a2 i ch))
  let g4 := h.dense2.grad C d2 G
  let g3 := h.bn2.grad z (actBack a2 (maskMul m2 g4.x))
  let g2 := h.dense1.grad c1 d1 g3.x
  let g1 := h.bn1.grad f (actBack a1 (maskMul m1 g2.x))
  ⟨g1, g2, g3, g4⟩

/-- Backward pass of modelnet40.py:392-400, where the second dropout comes before the
activation. -/
noncomputable def NetHead.back40 (h : NetHead) (c1 C : ℕ) {n : ℕ} (m1 m2 f G : Fin n → ℕ → ℝ) : HeadGrads n :=
  let a1 := h.bn1.apply true f
  let d1 := maskMul m1 (fun i ch => kerasLrelu (a1 i ch))
  let z := h.dense1.apply d1
  let a2 := maskMul m2 (h.bn2.apply true z)
  let g4 := h.dense2.grad C (fun i ch => kerasLrelu (a2 i ch)) G
  let g3 := h.bn2.grad z (maskMul m2 (actBack a2 g4.x))
  let g2 := h.dense1.grad c1 d1 g3.x
  let g1 := h.bn1.grad f (actBack a1 (maskMul m1 g2.x))
  ⟨g1, g2, g3, g4⟩

end PC
