import Verif.Metrics

/-!
# The training loop with checkpoints (modelnet40_small.py:353-449)

The loop as a sequence of effects on the process and on the directory
`saved_models`; a crash (or an exception of the library) may happen between any
two effects.  `modelnet40.py:496-556` is the same loop without saving.  Not modelled:
printing; `epoch_save = 0` (division by zero after the first epoch).
-/

set_option linter.unusedVariables false

namespace PC

/-- What the loop uses of the network and the library.  `W`: the variables of the
model (weights and moving averages, all that `save_weights` stores); `O`: the state of
the optimiser (step number, moments); `β`: a batch with the random choices made while
it is processed (sampling, dropout). -/
structure TrainEnv (W O β : Type*) where
  /-- `model(points, features, sizes, training=True)` (small:377): logits, and the
  variables after the update of the moving averages -/
  forward : W → β → List (ℕ → ℝ) × W
  /-- `tape.gradient` and `optimizer.apply_gradients` (small:381-383) -/
  step : W → O → β → W × O
  /-- `model(..., training=False)` (small:408) -/
  infer : W → β → List (ℕ → ℝ)
  labels : β → List ℕ
  loss : (ℕ → ℝ) → ℕ → ℝ
  C : ℕ

/-- A checkpoint `saved_models/<epoch>`. -/
inductive Ckpt (W : Type*)
  | absent
  /-- writing has begun but has not ended -/
  | torn
  | saved (w : W)

/-- State of the process (variables, optimiser, metrics, the four lists of results as
two lists of pairs) and of the directory. -/
structure LoopState (W O : Type*) where
  w : W
  o : O
  m : MeanMetric × MeanMetric
  trainRes : List (ℝ × ℝ)
  testRes : List (ℝ × ℝ)
  files : ℕ → Ckpt W

/-- The effects of the loop body in program order. -/
inductive LoopEv (β : Type*)
  /-- `reset_states` of both metrics (small:372-373, 403-404) -/
  | reset
  /-- one iteration over `gen_train` (small:374-397) -/
  | train (b : β)
  /-- the training results are appended (small:399-400) -/
  | endTrain
  /-- one iteration over `gen_test` (small:406-413) -/
  | test (b : β)
  /-- the validation results are appended (small:415-416) -/
  | endTest
  /-- `model.save_weights('saved_models/' + str(epoch))` (small:431-432) -/
  | saveBegin (e : ℕ)
  | saveEnd (e : ℕ)

section
variable {W O β : Type*}

/-- Effect of an event. -/
noncomputable def LoopState.exec (T : TrainEnv W O β) (s : LoopState W O) : LoopEv β → LoopState W O
  | .reset => { s with m := (.new, .new) }
  | .train b =>
    let f := T.forward s.w b
    let u := T.step f.2 s.o b
    { s with w := u.1, o := u.2, m := validateStep T.loss T.C s.m (T.labels b) f.1 }
  | .endTrain => { s with trainRes := s.trainRes ++ [(s.m.1.result, s.m.2.result)] }
  | .test b => { s with m := validateStep T.loss T.C s.m (T.labels b) (T.infer s.w b) }
  | .endTest => { s with testRes := s.testRes ++ [(s.m.1.result, s.m.2.result)] }
  | .saveBegin e => { s with files := Function.update s.files e .torn }
  | .saveEnd e => { s with files := Function.update s.files e (.saved s.w) }

/-- The state after some events. -/
noncomputable def LoopState.run (T : TrainEnv W O β) (s : LoopState W O) (evs : List (LoopEv β)) : LoopState W O :=
  evs.foldl (fun s ev => s.exec T ev) s

/-- One iteration over the epochs (small:367-432); `es` is `epoch_save`. -/
def epochEvents (es e : ℕ) (train test : List β) : List (LoopEv β) :=
  [.reset] ++ train.map .train ++ [.endTrain, .reset] ++ test.map .test ++ [.endTest] ++
    (if e % es = 0 then [.saveBegin e, .saveEnd e] else [])

/-- `training` (small:353-432) for `E` epochs. -/
def trainingEvents (es E : ℕ) (train test : ℕ → List β) : List (LoopEv β) :=
  (List.range E).flatMap (fun e => epochEvents es e (train e) (test e))

/-- The state when `training` is entered (small:360-365). -/
def LoopState.start (w : W) (o : O) (files : ℕ → Ckpt W) : LoopState W O :=
  ⟨w, o, (.new, .new), [], [], files⟩

/-- `training` up to a crash after `n` effects; the whole call if `n` is large enough. -/
noncomputable def trainingUpTo (T : TrainEnv W O β) (es E : ℕ) (train test : ℕ → List β) (w : W) (o : O)
    (files : ℕ → Ckpt W) (n : ℕ) : LoopState W O :=
  (LoopState.start w o files).run T ((trainingEvents es E train test).take n)

/-- `model.load_weights('saved_models/<epoch>')` (small:442): an exception unless the
checkpoint is complete. -/
def loadWeights (files : ℕ → Ckpt W) (e : ℕ) : Except Err W :=
  match files e with
  | .saved w => .ok w
  | .torn => .error .invalidArgument
  | .absent => .error .fileNotFound

/-- A new process that loads checkpoint `e` and calls `training` (small:441-449): the
optimiser is created anew (small:347), epochs are counted from zero. -/
noncomputable def resumeUpTo (T : TrainEnv W O β) (es E : ℕ) (train test : ℕ → List β) (o : O)
    (files : ℕ → Ckpt W) (e n : ℕ) : Except Err (LoopState W O) :=
  match loadWeights files e with
  | .error err => .error err
  | .ok w => .ok (trainingUpTo T es E train test w o files n)

end
end PC
