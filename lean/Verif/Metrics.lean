import Verif.Train
import Verif.Nets
import Mathlib.Analysis.SpecialFunctions.Exp

/-!
# Validation in the training scripts (modelnet40.py:529-541, modelnet40_small.py)

The two metrics are objects with a running total and a running count.  The loss
of one row (`SparseCategoricalCrossentropy` on the predicted probabilities) is a
parameter: library code.
-/

set_option linter.unusedVariables false

namespace PC

/-- `tf.keras.metrics.Mean` and the state of `SparseCategoricalAccuracy`
(modelnet40.py:502-503, 530-531): a total and a count. -/
structure MeanMetric where
  total : ℝ
  count : ℝ

/-- A new metric. -/
def MeanMetric.new : MeanMetric := ⟨0, 0⟩

/-- `epoch_loss_avg.update_state(loss)` (modelnet40.py:518, 537). -/
def MeanMetric.update (m : MeanMetric) (v : ℝ) : MeanMetric := ⟨m.total + v, m.count + 1⟩

/-- `result()` (modelnet40.py:525-526, 539-540): `div_no_nan`. -/
noncomputable def MeanMetric.result (m : MeanMetric) : ℝ := if m.count = 0 then 0 else m.total / m.count

/-- `tf.nn.softmax(logits, axis=-1)` of one row with `C` classes
(modelnet40.py:514, 535). -/
noncomputable def softmaxRow (C : ℕ) (x : ℕ → ℝ) (i : ℕ) : ℝ := Real.exp (x i) / ∑ j ∈ Finset.range C, Real.exp (x j)

/-- `argmax` of a row with `C` entries, the first one in case of ties; as a loop
over the entries that keeps the best index so far. -/
noncomputable def argmaxRow (x : ℕ → ℝ) : ℕ → ℕ
  | 0 => 0
  | C + 1 => if x (argmaxRow x C) < x C then C else argmaxRow x C

/-- `epoch_accuracy.update_state(labels, pred)` (modelnet40.py:519, 538): one match or
miss per row. -/
noncomputable def MeanMetric.updateAccuracy (C : ℕ) (m : MeanMetric) (labels : List ℕ) (pred : List (ℕ → ℝ)) :
    MeanMetric :=
  ⟨m.total + ((List.zipWith (fun l x => if argmaxRow x C = l then (1 : ℝ) else 0) labels pred).sum),
    m.count + labels.length⟩

/-- `loss_function(y_true=labels, y_pred=pred)` (modelnet40.py:487, 515, 536): the
mean over the batch. -/
noncomputable def batchLoss (loss : (ℕ → ℝ) → ℕ → ℝ) (labels : List ℕ) (pred : List (ℕ → ℝ)) : ℝ :=
  (List.zipWith (fun l x => loss x l) labels pred).sum / labels.length

/-- One step of the validation loop (modelnet40.py:533-538) after the model returned
`logits`. -/
noncomputable def validateStep (loss : (ℕ → ℝ) → ℕ → ℝ) (C : ℕ) (m : MeanMetric × MeanMetric) (labels : List ℕ)
    (logits : List (ℕ → ℝ)) : MeanMetric × MeanMetric :=
  let pred := logits.map (softmaxRow C)
  (m.1.update (batchLoss loss labels pred), m.2.updateAccuracy C labels pred)

/-- The validation loop (modelnet40.py:530-540) over the batches of the generator:
possible pairs of loss and accuracy, or an exception; `call` gives the possible
results of the model. -/
inductive Validate (call : GenBatch ℝ → Except Err (List (ℕ → ℝ)) → Prop) (loss : (ℕ → ℝ) → ℕ → ℝ) (C : ℕ) :
    MeanMetric × MeanMetric → List (GenBatch ℝ) → Except Err (ℝ × ℝ) → Prop
  | nil (m) : Validate call loss C m [] (.ok (m.1.result, m.2.result))
  | fail (m b bs e) : call b (.error e) → Validate call loss C m (b :: bs) (.error e)
  | cons (m b bs logits r) : call b (.ok logits) →
      Validate call loss C (validateStep loss C m (b.rows.map (·.2)) logits) bs r →
      Validate call loss C m (b :: bs) r

/-- `model(points, features, gen_test.sizes, training=False)` (modelnet40.py:534) for a
batch of the generator; `sizes` is `np.ones([batch_size]) * samples_per_model`
(modelnet40.py:416). -/
def Net40.onBatch (E : NetEnv) (N : Net40 3) (lower : String → String) (mode : String) (B V : ℕ) (b : GenBatch ℝ)
    (r : Except Err (List (ℕ → ℝ))) : Prop :=
  N.Call (k := 1) E lower mode B V (b.rows.map (·.1)) (b.features.map (·.map (fun l ch => l.getD ch 0)))
    (List.replicate B V) r

/-- Validation of one epoch with generator `g` (modelnet40.py:529-540).  The batches are
made one by one in the code; here they are made before the loop, which makes no
difference for the metrics. -/
def Net40.Validation (E : NetEnv) (N : Net40 3) (lower : String → String) (mode : String) (loss : (ℕ → ℝ) → ℕ → ℝ)
    (C V : ℕ) (g : Gen ℝ) (rnd : ℕ → ℕ → Fin 3 → ℝ) (r : Except Err (ℝ × ℝ)) : Prop :=
  match g.pass V rnd with
  | .error e => r = .error e
  | .ok bs => Validate (N.onBatch E lower mode g.B V) loss C (.new, .new) bs r

end PC
