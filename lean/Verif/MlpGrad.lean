import Verif.GpuGrad
import Verif.Activation

/-!
# Gradients of the kernel MLPs of `MCConv`

TensorFlow's gradient functions of `tf.matmul`, `+`, the activation functions,
`tf.tile`, `tf.reshape`, `tf.transpose`, `tf.gather`, `-` and `/`, composed in
the order in which `MCConv.py:164-172, 263-269` composes the operations.  Exact
real arithmetic.
-/

set_option linter.unusedVariables false

namespace PC

/-- The dictionary `non_linearity_types` (MCConv.py:27-31), looked up with the
name in lower case (line 168). -/
inductive NonLin
  | relu | leaky | elu

/-- `tf.nn.relu`, `tf.nn.leaky_relu` (with the default `alpha=0.2`), `tf.nn.elu`. -/
noncomputable def NonLin.fwd : NonLin → ℝ → ℝ
  | .relu, x => max x 0
  | .leaky, x => max (2 / 10 * x) x
  | .elu, x => if x < 0 then Real.exp x - 1 else x

/-- The factor by which TensorFlow's `ReluGrad`, `LeakyReluGrad`, `EluGrad`
multiply the upstream gradient, for the argument `x`: `ReluGrad` and `EluGrad`
test the result, `LeakyReluGrad` the argument. -/
noncomputable def NonLin.grad : NonLin → ℝ → ℝ
  | .relu, x => if 0 < max x 0 then 1 else 0
  | .leaky, x => if 0 < x then 1 else 2 / 10
  | .elu, x => if NonLin.elu.fwd x < 0 then NonLin.elu.fwd x + 1 else 1

/-- Backward pass through the hidden layers of all MLPs (MCConv.py:166-169) for
the inputs `x[mlp][pair]` and the gradient `G[mlp][pair]` of their outputs: the
gradients of the weights and biases of every layer and of the inputs.  The
gradient of a weight matrix is the transposed input times the gradient of the
product; that of a bias, which is broadcast along the pairs, is summed over the
pairs. -/
noncomputable def mlpGrad (a : NonLin) {P : ℕ} : ℕ → List (MlpLayer ℝ) → (ℕ → Fin P → ℕ → ℝ) → (ℕ → Fin P → ℕ → ℝ) →
    List (MlpLayer ℝ) × (ℕ → Fin P → ℕ → ℝ)
  | _, [], _, G => ([], G)
  | prev, l :: ls, x, G =>
    let z := fun mi j o => ∑ i ∈ Finset.range prev, x mi j i * l.w mi i o + l.b mi o
    let r := mlpGrad a l.size ls (fun mi j o => a.fwd (z mi j o)) G
    let gz := fun mi j o => r.2 mi j o * a.grad (z mi j o)
    (⟨l.size, fun mi i o => ∑ j, x mi j i * gz mi j o, fun mi o => ∑ j, gz mi j o⟩ :: r.1,
      fun mi j i => ∑ o ∈ Finset.range l.size, gz mi j o * l.w mi i o)

/-- Gradients of the layers and of the kernel inputs for the gradient `mG` of
the outputs of the MLPs (MCConv.py:164-171): row `j` and column `mi * hid + h` of
`mG` belong to output `h` of MLP `mi`; `tf.tile` sums over the MLPs. -/
noncomputable def MCLayer.mlpBackward (a : NonLin) (L : MCLayer ℝ) (D : ℕ) {P : ℕ} (input : Fin P → ℕ → ℝ) (mG : ℕ → ℕ → ℝ) :
    List (MlpLayer ℝ) × (Fin P → ℕ → ℝ) :=
  let r := mlpGrad a D L.layers (fun _ => input) (fun mi j h => mG j.val (mi * L.hid + h))
  (r.1, fun j d => ∑ mi ∈ Finset.range L.mlps, r.2 mi j d)

/-- Gradients of the points through the kernel inputs (MCConv.py:263-269): divided
by the radius and added up over the pairs of a neighbour; with the opposite sign
over the pairs of a centre. -/
noncomputable def inputBackward {n m D : ℕ} (ids : List (Fin n × Fin m)) (radius : ℝ) (gIn : Fin ids.length → ℕ → ℝ) :
    (Fin n → Fin D → ℝ) × (Fin m → Fin D → ℝ) :=
  (fun p d => ∑ j : Fin ids.length, if (ids.get j).1 = p then gIn j d.val / radius else 0,
   fun c d => ∑ j : Fin ids.length, if (ids.get j).2 = c then -(gIn j d.val / radius) else 0)

end PC
