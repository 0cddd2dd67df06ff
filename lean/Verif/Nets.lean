import Verif.Blocks
import Verif.Hierarchy
import Verif.Features

/-!
# The networks of the training scripts (modelnet40.py, modelnet40_small.py)

Features are real, rows of features are functions of the channel.  Row `i` of a
feature matrix belongs to row `i` of the points of a cloud.  Not modelled: the
number of channels of a matrix, initial values of the weights, the update of the
moving averages of a batch normalisation, the gradient.
-/

set_option linter.unusedVariables false

namespace PC

/-- The convolution layers of the networks with their parameters. -/
inductive NetConv (D : ℕ)
  | mc (L : MCLayer ℝ)
  | pc (L : PCLayer ℝ)
  | kp (L : KPLayer D)

/-- What the networks are run with: density kernel, activation of the kernels
(`ker`, `act`), `LeakyReLU`, the most negative float, the device, the border of
the bounding boxes, the flag `training` and what the two dropout layers do in
training. -/
structure NetEnv where
  ker : ℝ → ℝ
  act : ℝ → ℝ
  lrelu : ℝ → ℝ
  lowest : ℝ
  dev : Device
  eps : ℝ
  training : Bool
  drop1 : ∀ n, (Fin n → ℕ → ℝ) → Fin n → ℕ → ℝ
  drop2 : ∀ n, (Fin n → ℕ → ℝ) → Fin n → ℕ → ℝ

/-- `tf.keras.layers.BatchNormalization` on a matrix: parameters and stored
moments per channel. -/
structure BNorm where
  gamma : ℕ → ℝ
  beta : ℕ → ℝ
  mean : ℕ → ℝ
  var : ℕ → ℝ
  eps : ℝ

/-- With `training` the moments of the rows given, otherwise the stored ones. -/
noncomputable def BNorm.apply (training : Bool) (bn : BNorm) {n : ℕ} (f : Fin n → ℕ → ℝ) (i : Fin n) (ch : ℕ) : ℝ :=
  let mu := if training then (∑ j, f j ch) / n else bn.mean ch
  let va := if training then (∑ j, (f j ch - mu) ^ 2) / n else bn.var ch
  bn.gamma ch * ((f i ch - mu) / Real.sqrt (va + bn.eps)) + bn.beta ch

/-- `layers.Conv1x1` and `tf.keras.layers.Dense`. -/
structure Lin where
  cin : ℕ
  w : ℕ → ℕ → ℝ
  b : ℕ → ℝ

/-- Application to all rows. -/
noncomputable def Lin.apply (l : Lin) {n : ℕ} (f : Fin n → ℕ → ℝ) : Fin n → ℕ → ℝ := conv1x1 l.cin l.w l.b f

/-- Batch normalisation followed by `LeakyReLU`. -/
noncomputable def NetEnv.bnAct (E : NetEnv) (bn : BNorm) {n : ℕ} (f : Fin n → ℕ → ℝ) (i : Fin n) (ch : ℕ) : ℝ :=
  E.lrelu (bn.apply E.training f i ch)

section
variable {k : ℕ}

/-- Call of a convolution without neighbourhood and with the default bandwidth
(MCConv.py:196-205, PointConv.py:204-213) or influence distance
(KPConv.py:234-243).  A result of `KPConv` with another number of rows than
points does not fit the following layers; the model reports it at once. -/
noncomputable def NetConv.call (E : NetEnv) (L : NetConv (k + 2)) (cin cout : Cloud (Fin (k + 2) → ℝ)) (radius : ℝ)
    (f : Fin cin.n → ℕ → ℝ) : Except Err (Fin cout.n → ℕ → ℝ) :=
  match L with
  | .mc L => L.call E.ker E.act E.dev E.eps cin cout radius (1 / 5) f
  | .pc L => L.call E.ker E.act E.dev E.eps cin cout radius (1 / 5) f
  | .kp L =>
    match L.call E.dev E.eps cin cout radius none f with
    | .error e => .error e
    | .ok (n, out) => if n = cout.n then .ok (fun i => out i.val) else .error .invalidArgument

/-- `conv_block` (modelnet40.py:128-203). -/
structure NetBlock (D : ℕ) where
  bn0 : BNorm
  down : Lin
  bn1 : BNorm
  conv : NetConv D
  bn2 : BNorm
  up : Lin
  strided : Bool
  proj : Option (BNorm × Lin)

/-- First skip layer (modelnet40.py:191-195, 245-248): max pooling for a strided
block, else the identity.  In the second case the rows of the two branches must
be as many (TensorFlow would also accept a single row by broadcasting, which is
not modelled). -/
noncomputable def NetBlock.pool (E : NetEnv) (b : NetBlock (k + 2)) (cin cout : Cloud (Fin (k + 2) → ℝ))
    (radius : RadiusArg ℝ) (f : Fin cin.n → ℕ → ℝ) : Except Err (Fin cout.n → ℕ → ℝ) :=
  if b.strided then
    match localPool .max E.dev E.eps cin cout radius f with
    | .error e => .error e
    | .ok out => .ok (fun i ch => (out i ch).getD E.lowest)
  else if h : cout.n = cin.n then .ok (fun i => f (Fin.cast h i))
  else .error .invalidArgument

/-- `conv_block.__call__` (modelnet40.py:205-257). -/
noncomputable def NetBlock.run (E : NetEnv) (b : NetBlock (k + 2)) (cin cout : Cloud (Fin (k + 2) → ℝ)) (convRadius : ℝ)
    (radius : RadiusArg ℝ) (f : Fin cin.n → ℕ → ℝ) : Except Err (Fin cout.n → ℕ → ℝ) :=
  match b.conv.call E cin cout convRadius (E.bnAct b.bn1 (b.down.apply (E.bnAct b.bn0 f))) with
  | .error e => .error e
  | .ok r =>
    match b.pool E cin cout radius f with
    | .error e => .error e
    | .ok s =>
      let skip := match b.proj with
        | none => s
        | some (bn, l) => l.apply (E.bnAct bn s)
      .ok (fun i ch => b.up.apply (E.bnAct b.bn2 r) i ch + skip i ch)

/-- Classification head: two normalisations and two dense layers. -/
structure NetHead where
  bn1 : BNorm
  dense1 : Lin
  bn2 : BNorm
  dense2 : Lin

/-- Dropout is the identity outside training. -/
def NetEnv.dropout1 (E : NetEnv) {n : ℕ} (f : Fin n → ℕ → ℝ) : Fin n → ℕ → ℝ :=
  if E.training then E.drop1 n f else f
/-- The second dropout layer. -/
def NetEnv.dropout2 (E : NetEnv) {n : ℕ} (f : Fin n → ℕ → ℝ) : Fin n → ℕ → ℝ :=
  if E.training then E.drop2 n f else f

/-- modelnet40.py:392-400; the second dropout comes before the activation. -/
noncomputable def NetHead.run40 (E : NetEnv) (h : NetHead) {n : ℕ} (f : Fin n → ℕ → ℝ) : Fin n → ℕ → ℝ :=
  h.dense2.apply (fun i ch => E.lrelu (E.dropout2 (h.bn2.apply E.training
    (h.dense1.apply (E.dropout1 (E.bnAct h.bn1 f)))) i ch))

/-- modelnet40_small.py:253-261. -/
noncomputable def NetHead.runSmall (E : NetEnv) (h : NetHead) {n : ℕ} (f : Fin n → ℕ → ℝ) : Fin n → ℕ → ℝ :=
  h.dense2.apply (E.dropout2 (E.bnAct h.bn2 (h.dense1.apply (E.dropout1 (E.bnAct h.bn1 f)))))

/-! ### modelnet40.py -/

/-- A level after the first of `mymodel` (modelnet40.py:296-325): blocks and
radii. -/
structure Level40 (D : ℕ) where
  strided : NetBlock D
  block : NetBlock D
  poolRadius : ℝ
  convRadius : ℝ

/-- `mymodel` of modelnet40.py (275-337) with at least one level. -/
structure Net40 (D : ℕ) where
  init : NetConv D
  block0 : NetBlock D
  poolRadius0 : ℝ
  convRadius0 : ℝ
  levels : List (Level40 D)
  head : NetHead

/-- `self.pool_radii` (modelnet40.py:285): rows of shape `[1]`. -/
def Net40.sizes {D : ℕ} (N : Net40 D) : List (Arg ℝ) :=
  (N.poolRadius0 :: N.levels.map Level40.poolRadius).map (fun r => ⟨[1], [r]⟩)

/-- The levels after the first (modelnet40.py:377-389).  The radii of the strided
block are `self.pool_radii[i]`, of shape `[1]`.  The hierarchy has one cloud more
than there are levels, so that other combinations do not occur. -/
noncomputable def net40Loop (E : NetEnv) : (o : CloudObj (Fin (k + 2) → ℝ)) → (Fin o.c.n → ℕ → ℝ) →
    List (CloudObj (Fin (k + 2) → ℝ)) → List (Level40 (k + 2)) →
    Except Err ((o : CloudObj (Fin (k + 2) → ℝ)) × (Fin o.c.n → ℕ → ℝ))
  | o, f, [], [] => .ok ⟨o, f⟩
  | o, f, o' :: os, l :: ls =>
    match l.strided.run E o.c o'.c l.poolRadius (.vec [l.poolRadius]) f with
    | .error e => .error e
    | .ok f1 =>
      match l.block.run E o'.c o'.c l.convRadius (.vec []) f1 with
      | .error e => .error e
      | .ok f2 => net40Loop E o' f2 os ls
  | _, _, _, _ => .error .indexError

/-- Features on the first level below the input (modelnet40.py:369-375,
MCConv.py:246): the padded input features, cut to `num_pts_in` batch entries,
flattened with the sizes of that level. -/
def net40Init {α β : Type*} (o1 : CloudObj α) (feats : List (List β)) : Except Err (Fin o1.c.n → β) :=
  (o1.flattenFeatures (feats.take o1.c.n)).1

/-- `mymodel.__call__` on a hierarchy (modelnet40.py:363-400). -/
noncomputable def Net40.logits (E : NetEnv) (N : Net40 (k + 2)) (H : Hier k ℝ) (feats : List (List (ℕ → ℝ))) :
    Except Err (List (ℕ → ℝ)) :=
  match H.clouds with
  | _ :: o1 :: os =>
    match net40Init o1 feats with
    | .error e => .error e
    | .ok f0 =>
      match N.init.call E o1.c o1.c N.convRadius0 f0 with
      | .error e => .error e
      | .ok f1 =>
        match N.block0.run E o1.c o1.c N.convRadius0 (.vec []) f1 with
        | .error e => .error e
        | .ok f2 =>
          match net40Loop E o1 f2 os N.levels with
          | .error e => .error e
          | .ok ⟨o, f⟩ => .ok (List.ofFn (N.head.run40 E
              (fun (b : Fin o.c.B) ch => (globalPool .mean o.c f b ch).getD 0)))
  | _ => .error .indexError

/-- `mymodel.__call__` (modelnet40.py:345-400): the possible results for padded
points, sizes and padded features. -/
def Net40.Call (E : NetEnv) (N : Net40 (k + 2)) (lower : String → String) (mode : String) (B V : ℕ)
    (points : List (List (Fin (k + 2) → ℝ))) (feats : List (List (ℕ → ℝ))) (sizes : List ℕ)
    (res : Except Err (List (ℕ → ℝ))) : Prop :=
  match CloudObj.newPadded [points.length] V points (some sizes) (some B) with
  | .error e => res = .error e
  | .ok o => (∃ e, HierNew E.dev E.eps lower mode o N.sizes (.error e) ∧ res = .error e) ∨
      ∃ H, HierNew E.dev E.eps lower mode o N.sizes (.ok H) ∧ res = N.logits E H feats

/-! ### modelnet40_small.py -/

/-- A level of the small model before the last (modelnet40_small.py:154-186). -/
structure LevelSmall (D : ℕ) where
  conv : NetConv D
  bn1 : BNorm
  lin : Lin
  bn2 : BNorm
  sampleRadius : ℝ
  convRadius : ℝ

/-- `mymodel` of modelnet40_small.py (134-196) with at least one level. -/
structure NetSmall (D : ℕ) where
  levels : List (LevelSmall D)
  last : NetConv D
  lastSampleRadius : ℝ
  lastConvRadius : ℝ
  head : NetHead

/-- `self.sample_radii` (modelnet40_small.py:145). -/
def NetSmall.sizes {D : ℕ} (N : NetSmall D) : List (Arg ℝ) :=
  (N.levels.map LevelSmall.sampleRadius ++ [N.lastSampleRadius]).map (fun r => ⟨[1], [r]⟩)

/-- The loop (modelnet40_small.py:232-252); the last layer returns its rows
sorted by batch ids.  Result: the rows. -/
noncomputable def netSmallLoop (E : NetEnv) (N : NetSmall (k + 2)) : (o : CloudObj (Fin (k + 2) → ℝ)) →
    (Fin o.c.n → ℕ → ℝ) → List (CloudObj (Fin (k + 2) → ℝ)) → List (LevelSmall (k + 2)) →
    Except Err ((n : ℕ) × (Fin n → ℕ → ℝ))
  | o, f, [o'], [] =>
    match N.last.call E o.c o'.c N.lastConvRadius f with
    | .error e => .error e
    | .ok g => .ok ⟨o'.c.n, g ∘ o'.c.sortedIndicesBatch⟩
  | o, f, o' :: os, l :: ls =>
    match l.conv.call E o.c o'.c l.convRadius f with
    | .error e => .error e
    | .ok g => netSmallLoop E N o' (E.bnAct l.bn2 (l.lin.apply (E.bnAct l.bn1 g))) os ls
  | _, _, _, _ => .error .indexError

/-- `mymodel.__call__` on a hierarchy (modelnet40_small.py:231-261). -/
noncomputable def NetSmall.logits (E : NetEnv) (N : NetSmall (k + 2)) (H : Hier k ℝ) (feats : List (List (ℕ → ℝ))) :
    Except Err (List (ℕ → ℝ)) :=
  match H.clouds with
  | o :: os =>
    match (o.flattenFeatures feats).1 with
    | .error e => .error e
    | .ok f0 =>
      match netSmallLoop E N o f0 os N.levels with
      | .error e => .error e
      | .ok ⟨n, f⟩ => .ok (List.ofFn (N.head.runSmall E f))
  | _ => .error .indexError

/-- `mymodel.__call__` of the small model (modelnet40_small.py:205-261). -/
def NetSmall.Call (E : NetEnv) (N : NetSmall (k + 2)) (lower : String → String) (mode : String) (B V : ℕ)
    (points : List (List (Fin (k + 2) → ℝ))) (feats : List (List (ℕ → ℝ))) (sizes : List ℕ)
    (res : Except Err (List (ℕ → ℝ))) : Prop :=
  match CloudObj.newPadded [points.length] V points (some sizes) (some B) with
  | .error e => res = .error e
  | .ok o => (∃ e, HierNew E.dev E.eps lower mode o N.sizes (.error e) ∧ res = .error e) ∨
      ∃ H, HierNew E.dev E.eps lower mode o N.sizes (.ok H) ∧ res = N.logits E H feats

end
end PC
