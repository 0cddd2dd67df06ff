import Verif.Layers

/-!
# Gradients of the pooling layers (`Pooling.py`)

TensorFlow's gradient functions of `unsorted_segment_max`, `unsorted_segment_mean`
and `tf.gather`.  Exact real arithmetic.
-/

set_option linter.unusedVariables false

namespace PC

/-- Gradient of `unsorted_segment_max` / `unsorted_segment_mean` (Pooling.py:54-57,
93-96, 157-160) with respect to the data, for the upstream gradient `G`.
`_UnsortedSegmentMinOrMaxGrad` divides the gradient of a segment by the number of
entries that equal its maximum and gives that to each of them;
`unsorted_segment_mean` is `unsorted_segment_sum` divided by `max(count, 1)`. -/
noncomputable def PoolOp.grad (op : PoolOp) {n : ℕ} (x : Fin n → ℝ) (ids : Fin n → ℕ) (G : ℕ → ℝ) (i : Fin n) : ℝ :=
  match op with
  | .max => if segMax x ids (ids i) = some (x i) then
      G (ids i) / (((segRows ids (ids i)).filter (fun j => segMax x ids (ids j) = some (x j))).card : ℝ) else 0
  | .mean => G (ids i) / ((Max.max (segRows ids (ids i)).card 1 : ℕ) : ℝ)

/-- Gradient of the features of a global pooling (Pooling.py:25-100). -/
noncomputable def globalPoolGrad (op : PoolOp) {α : Type*} (c : Cloud α) (f : Fin c.n → ℕ → ℝ) (G : ℕ → ℕ → ℝ) (i : Fin c.n)
    (ch : ℕ) : ℝ :=
  op.grad (fun i => f i ch) c.batch (fun b => G b ch) i

/-- Gradient of the features of a local pooling (Pooling.py:153-160): the gradient
of `tf.gather` adds up the gradients of the pairs of a point. -/
noncomputable def localPoolGrad (op : PoolOp) {n m nf : ℕ} (pairs : List (Fin n × Fin m)) (f : Fin nf → ℕ → ℝ) (G : ℕ → ℕ → ℝ)
    (p : Fin nf) (ch : ℕ) : ℝ :=
  ∑ j : Fin pairs.length, if (pairs.get j).1.val = p.val then
    op.grad (fun j : Fin pairs.length => gatherD f (pairs.get j).1.val ch) (fun j => (pairs.get j).2.val) (fun c => G c ch) j else 0

/-- Forward and backward pass of `_LocalPointPooling.__call__` (Pooling.py:103-166). -/
noncomputable def localPoolBackward {k : ℕ} (op : PoolOp) (dev : Device) (eps : ℝ) (cin cout : Cloud (Fin (k + 2) → ℝ))
    (radius : RadiusArg ℝ) (f : Fin cin.n → ℕ → ℝ) (G : ℕ → ℕ → ℝ) : Except Err (Fin cin.n → ℕ → ℝ) :=
  match poolRadius (k + 2) radius with
  | .error e => .error e
  | .ok radii =>
    match Nbh.new dev ⟨cin, radii, eps⟩ radii (some cout) with
    | .error e => .error e
    | .ok h => .ok (localPoolGrad op h.originalNeighIds f G)

end PC
