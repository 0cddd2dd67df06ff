import Verif.Nets
import Verif.Train
import Mathlib.Analysis.SpecialFunctions.Pow.Real

/-!
# The tutorial notebook (pylib/notebooks/ModelNet40.ipynb)

Data generator, network, learning rate of the cells "data loader", "network
architecture", "model parameters" and "training loop".  Line numbers are those of
the notebook file.  Loss and gradients are modelled in `TutGrad`.  Not modelled: metrics.
-/

set_option linter.unusedVariables false

namespace PC

/-! ### The data generator (ModelNet40.ipynb:339-390) -/

/-- `array[indices]` of numpy for an array of indices: `IndexError` if one is out of
range. -/
def takeIdx {α : Type*} (l : List α) : List ℕ → Except Err (List α)
  | [] => .ok []
  | j :: js =>
    match l[j]? with
    | none => .error .indexError
    | some x =>
      match takeIdx l js with
      | .error e => .error e
      | .ok xs => .ok (x :: xs)

/-- A `modelnet_data_generator` of the notebook.  `epochSize` is computed once
(line 349). -/
structure GenTut (α : Type*) where
  points : List (List α)
  labels : List ℕ
  B : ℕ
  epochSize : ℕ
  index : ℕ

/-- A batch: sampled points, features (all one) and labels. -/
structure TutBatch (α : Type*) where
  points : List (List α)
  features : List (List (List ℕ))
  labels : List ℕ

variable {α : Type*}

/-- `__len__` (ModelNet40.ipynb:355-357). -/
def GenTut.len (g : GenTut α) : ℕ := g.epochSize / g.B

/-- The loop over the rows (ModelNet40.ipynb:378-380) for the rows `slice` of the
current batch; `sel b` is what `np.random.choice(self.ids, samples_per_model)`
returns for row `b`. -/
def tutRows (slice : List (List α)) (sel : ℕ → List ℕ) : ℕ → ℕ → Except Err (List (List α))
  | _, 0 => .ok []
  | b, m + 1 =>
    match slice[b]? with
    | none => .error .indexError
    | some pts =>
      match takeIdx pts (sel b) with
      | .error e => .error e
      | .ok row =>
        match tutRows slice sel (b + 1) m with
        | .error e => .error e
        | .ok rows => .ok (row :: rows)

/-- `__getitem__` (ModelNet40.ipynb:366-382). -/
def GenTut.getItem (g : GenTut α) (V i : ℕ) (sel : ℕ → List ℕ) : Except Err (TutBatch α) :=
  let labels := (g.labels.drop (i * g.B)).take ((i + 1) * g.B - i * g.B)
  let slice := (g.points.drop (i * g.B)).take ((i + 1) * g.B - i * g.B)
  match tutRows slice sel 0 g.B with
  | .error e => .error e
  | .ok rows => .ok ⟨rows, List.replicate g.B (List.replicate V [1]), labels⟩

/-- `__call__` (ModelNet40.ipynb:359-364). -/
def GenTut.call (g : GenTut α) (V : ℕ) (sel : ℕ → List ℕ) : Except Err (TutBatch α) × GenTut α :=
  match g.getItem V g.index sel with
  | .error e => (.error e, g)
  | .ok b => (.ok b, { g with index := g.index + 1 })

/-- `on_epoch_end` (ModelNet40.ipynb:384-390): the stored arrays are replaced one
after the other; `perm` is what `np.random.permutation` returns. -/
def GenTut.onEpochEnd (g : GenTut α) (perm : List ℕ) : Except Err Unit × GenTut α :=
  match takeIdx g.points perm with
  | .error e => (.error e, g)
  | .ok ps =>
    match takeIdx g.labels perm with
    | .error e => (.error e, { g with points := ps })
    | .ok ls => (.ok (), { g with points := ps, labels := ls, index := 0 })

/-- `__init__` (ModelNet40.ipynb:342-353). -/
def GenTut.new (points : List (List α)) (labels : List ℕ) (B : ℕ) (perm : List ℕ) : Except Err (GenTut α) :=
  match GenTut.onEpochEnd ⟨points, labels, B, points.length, 0⟩ perm with
  | (.error e, _) => .error e
  | (.ok _, g) => .ok g

/-- Method calls on the generator with the random choices made in them. -/
inductive TutCall
  | call (sel : ℕ → List ℕ)
  | getItem (i : ℕ) (sel : ℕ → List ℕ)
  | epochEnd (perm : List ℕ)

/-- State after one method call. -/
def GenTut.after (V : ℕ) (g : GenTut α) : TutCall → GenTut α
  | .call sel => (g.call V sel).2
  | .getItem _ _ => g
  | .epochEnd perm => (g.onEpochEnd perm).2

/-- `for points, features, labels in gen_train` (ModelNet40.ipynb:623, 643): items
`0 .. len-1` of a `keras.utils.Sequence`; `on_epoch_end` is not called. -/
def GenTut.pass (g : GenTut α) (V : ℕ) (sel : ℕ → ℕ → List ℕ) : Except Err (List (TutBatch α)) :=
  collect ((List.range g.len).map (fun i => g.getItem V i (sel i)))

/-- The batches of `E` epochs of `training` (ModelNet40.ipynb:615-623). -/
def GenTut.train (g : GenTut α) (V E : ℕ) (sel : ℕ → ℕ → ℕ → List ℕ) : Except Err (List (List (TutBatch α))) :=
  collect ((List.range E).map (fun e => g.pass V (sel e)))

/-! ### Learning rate (ModelNet40.ipynb:580-583, 606-631, 690-744) -/

/-- `ExponentialDecay(initial, decay_steps, rate)` without `staircase` at a step of
the optimiser (ModelNet40.ipynb:580-582). -/
noncomputable def smoothRate (init rate : ℝ) (steps step : ℕ) : ℝ := init * rate ^ ((step : ℝ) / steps)

/-- One call of `training` (ModelNet40.ipynb:606-631) with an optimiser that has made
`it` updates: the learning rate of each update and the number of updates
afterwards. One update per batch, `len` batches per epoch. -/
noncomputable def tutTraining (init rate : ℝ) (len epochs it : ℕ) : List (List ℝ) × ℕ :=
  ((List.range epochs).map (fun e => (List.range len).map (fun i => smoothRate init rate len (it + e * len + i))),
    it + epochs * len)

/-- The three calls of `training` in the notebook (ModelNet40.ipynb:692, 719, 744),
as a loop over the models: all use the optimiser created once (line 583). -/
noncomputable def tutRuns (init rate : ℝ) (len epochs : ℕ) : ℕ → ℕ → List (List (List ℝ))
  | 0, _ => []
  | m + 1, it =>
    let r := tutTraining init rate len epochs it
    r.1 :: tutRuns init rate len epochs m r.2

/-! ### The network (ModelNet40.ipynb:435-544) -/

/-- A convolution of the network before the last, with its normalisation and radii
(ModelNet40.ipynb:465-493). -/
structure LevelTut (D : ℕ) where
  conv : NetConv D
  bn : BNorm
  sampleRadius : ℝ
  convRadius : ℝ

/-- `mymodel` of the notebook (ModelNet40.ipynb:450-501) with at least one
convolution. -/
structure NetTut (D : ℕ) where
  levels : List (LevelTut D)
  last : NetConv D
  lastSampleRadius : ℝ
  lastConvRadius : ℝ
  head : NetHead

/-- `self.sample_radii` (ModelNet40.ipynb:458): rows of shape `[1]`. -/
def NetTut.sizes {D : ℕ} (N : NetTut D) : List (Arg ℝ) :=
  (N.levels.map LevelTut.sampleRadius ++ [N.lastSampleRadius]).map (fun r => ⟨[1], [r]⟩)

section
variable {k : ℕ}

/-- The loop over the convolutions (ModelNet40.ipynb:529-536). -/
noncomputable def netTutLoop (E : NetEnv) (N : NetTut (k + 2)) : (o : CloudObj (Fin (k + 2) → ℝ)) →
    (Fin o.c.n → ℕ → ℝ) → List (CloudObj (Fin (k + 2) → ℝ)) → List (LevelTut (k + 2)) →
    Except Err ((o : CloudObj (Fin (k + 2) → ℝ)) × (Fin o.c.n → ℕ → ℝ))
  | o, f, [o'], [] =>
    match N.last.call E o.c o'.c N.lastConvRadius f with
    | .error e => .error e
    | .ok g => .ok ⟨o', g⟩
  | o, f, o' :: os, l :: ls =>
    match l.conv.call E o.c o'.c l.convRadius f with
    | .error e => .error e
    | .ok g => netTutLoop E N o' (E.bnAct l.bn g) os ls
  | _, _, _, _ => .error .indexError

/-- Classification head (ModelNet40.ipynb:539-544), without dropout. -/
noncomputable def NetHead.runTut (E : NetEnv) (h : NetHead) {n : ℕ} (f : Fin n → ℕ → ℝ) : Fin n → ℕ → ℝ :=
  h.dense2.apply (E.bnAct h.bn2 (h.dense1.apply (E.bnAct h.bn1 f)))

/-- `mymodel.__call__` on a hierarchy (ModelNet40.ipynb:528-544). -/
noncomputable def NetTut.logits (E : NetEnv) (N : NetTut (k + 2)) (H : Hier k ℝ) (feats : List (List (ℕ → ℝ))) :
    Except Err (List (ℕ → ℝ)) :=
  match H.clouds with
  | o :: os =>
    match (o.flattenFeatures feats).1 with
    | .error e => .error e
    | .ok f0 =>
      match netTutLoop E N o f0 os N.levels with
      | .error e => .error e
      | .ok ⟨p, f⟩ => .ok (List.ofFn (N.head.runTut E
          (fun (b : Fin p.c.B) ch => (globalPool .mean p.c f b ch).getD 0)))
  | _ => .error .indexError

/-- `mymodel.__call__` (ModelNet40.ipynb:503-544) for points of shape `[B, V, D]`: no
sizes and no batch size are passed to the point cloud (line 523). -/
def NetTut.Call (E : NetEnv) (N : NetTut (k + 2)) (lower : String → String) (mode : String) (V : ℕ)
    (points : List (List (Fin (k + 2) → ℝ))) (feats : List (List (ℕ → ℝ)))
    (res : Except Err (List (ℕ → ℝ))) : Prop :=
  match CloudObj.newPadded [points.length] V points none none with
  | .error e => res = .error e
  | .ok o => (∃ e, HierNew E.dev E.eps lower mode o N.sizes (.error e) ∧ res = .error e) ∨
      ∃ H, HierNew E.dev E.eps lower mode o N.sizes (.ok H) ∧ res = N.logits E H feats

end
end PC
