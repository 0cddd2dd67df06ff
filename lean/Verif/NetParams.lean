import Verif.Nets
import Verif.Params
import Verif.Kernel

/-!
# The small network as a python object: construction, layers used by a call, checkpoints

`mymodel` of modelnet40_small.py keeps its layers in the lists `conv_layers`, `batch_layers` and `dense_layers`; the
constructor appends to them, the call reads them by position (from the end for the head).  `save_weights`
(modelnet40_small.py:432) stores the variables of all layers by list, position and name; `load_weights` (442) assigns them
to a model constructed again.
-/

set_option linter.unusedVariables false

namespace PC

/-- Numbers the variables of one convolution have, at the start or after training; only those of the layer type are used.
`ang` are the random angles of the built-in kernel points of `KPConv` (KPConv.py:124-125), which are not variables. -/
structure ConvVals where
  mlpW : ℕ → ℕ → ℕ → ℝ
  mlpB : ℕ → ℕ → ℝ
  final : ℕ → ℕ → ℕ → ℝ
  axis : ℕ → ℕ → ℝ
  bias : ℕ → ℝ
  weights : ℕ → ℕ → ℝ
  pw1 : ℕ → ℝ
  pb1 : ℕ → ℝ
  pw2 : ℕ → ℝ
  pb2 : ℝ
  ang : Fin 3 → ℝ

/-- Numbers of all variables, by number of the layer in order of construction. -/
structure SmallVals where
  conv : ℕ → ConvVals
  lin : ℕ → (ℕ → ℕ → ℝ) × (ℕ → ℝ)
  bn : ℕ → BNorm
  dense : ℕ → (ℕ → ℕ → ℝ) × (ℕ → ℝ)

/-- A convolution of the encoder (modelnet40_small.py:157-177). -/
noncomputable def smallConv (ty : String) (cin cout : ℕ) (v : ConvVals) : Except Err (NetConv 3) :=
  if ty = "MCConv" then
    match MCLayer.new cin cout 4 [⟨8, v.mlpW, v.mlpB⟩] v.final with
    | .error e => .error e
    | .ok L => .ok (.mc L)
  else if ty = "PointConv" then .ok (.pc ⟨cin, 32, v.axis, v.bias, v.weights, v.pw1, v.pb1, v.pw2, v.pb2⟩)
  else if ty = "KPConv" then
    match KPLayer.builtin cin 15 .linear v.ang v.weights none with
    | .error e => .error e
    | .ok L => .ok (.kp L)
  else .error .valueError

/-- `tf.keras.layers.BatchNormalization()`: `epsilon` is 0.001. -/
noncomputable def smallBn (v : BNorm) : BNorm := { v with eps := 1 / 1000 }

/-- The lists of layers, each with its number of output features, and the arguments kept by the model
(modelnet40_small.py:143-153). -/
structure SmallObj where
  convs : List ((NetConv 3 × ℕ) ⊕ (Lin × ℕ))
  bns : List (BNorm × ℕ)
  denses : List (Lin × ℕ)
  sampleRadii : List ℝ
  convRadii : List ℝ

/-- The loop of the constructor (modelnet40_small.py:155-186) over the layers `i, …, i + r - 1` of `L`.  An index of
`feature_sizes` beyond its end raises. -/
noncomputable def smallEncoder (ty : String) (fs : List ℕ) (v : SmallVals) (L : ℕ) : ℕ → ℕ →
    List ((NetConv 3 × ℕ) ⊕ (Lin × ℕ)) → List (BNorm × ℕ) →
    Except Err (List ((NetConv 3 × ℕ) ⊕ (Lin × ℕ)) × List (BNorm × ℕ))
  | _, 0, cs, bs => .ok (cs, bs)
  | i, r + 1, cs, bs =>
    match fs[i]?, fs[i + 1]? with
    | some a, some c =>
      match smallConv ty a c (v.conv i) with
      | .error e => .error e
      | .ok conv =>
        if i < L - 1 then
          smallEncoder ty fs v L (i + 1) r (cs ++ [.inl (conv, c), .inr (⟨c, (v.lin i).1, (v.lin i).2⟩, c)])
            (bs ++ [(smallBn (v.bn (2 * i)), c), (smallBn (v.bn (2 * i + 1)), c)])
        else smallEncoder ty fs v L (i + 1) r (cs ++ [.inl (conv, c)]) bs
    | _, _ => .error .indexError

/-- The constructor (modelnet40_small.py:134-196); `num_layers` is the number of sampling radii.  Batch normalisations and
dense layers get their number of input features in the first call: that of the layer before, here `feature_sizes[num_layers]`
for the head. -/
noncomputable def SmallObj.new (ty : String) (fs : List ℕ) (sampleRadii convRadii : List ℝ) (v : SmallVals) : Except Err SmallObj :=
  let L := sampleRadii.length
  match smallEncoder ty fs v L 0 L [] [] with
  | .error e => .error e
  | .ok (cs, bs) =>
    match fs[L]?, fs.reverse[1]?, fs.reverse[0]? with
    | some c, some h, some o => .ok
        { convs := cs
          bns := bs ++ [(smallBn (v.bn (2 * (L - 1))), c), (smallBn (v.bn (2 * (L - 1) + 1)), h)]
          denses := [(⟨c, (v.dense 0).1, (v.dense 0).2⟩, h), (⟨h, (v.dense 1).1, (v.dense 1).2⟩, o)]
          sampleRadii := sampleRadii
          convRadii := convRadii }
    | _, _, _ => .error .indexError

/-- The layers used in round `i` of the call (modelnet40_small.py:234-247). -/
def SmallObj.level (M : SmallObj) (i : ℕ) : Option (LevelSmall 3) :=
  match M.convs[i * 2]?, M.bns[i * 2]?, M.convs[i * 2 + 1]?, M.bns[i * 2 + 1]?, M.sampleRadii[i]?, M.convRadii[i]? with
  | some (.inl c), some b1, some (.inr l), some b2, some s, some r => some ⟨c.1, b1.1, l.1, b2.1, s, r⟩
  | _, _, _, _, _, _ => none

/-- The rounds `i, …, i + r - 1`. -/
def SmallObj.levels (M : SmallObj) : ℕ → ℕ → Option (List (LevelSmall 3))
  | _, 0 => some []
  | i, r + 1 =>
    match M.level i, M.levels (i + 1) r with
    | some l, some ls => some (l :: ls)
    | _, _ => none

/-- The network a call computes (modelnet40_small.py:232-261), at least one layer; the head counts from the end.  `none`: an
index or a type error. -/
def SmallObj.net (M : SmallObj) : Option (NetSmall 3) :=
  let L := M.sampleRadii.length
  match M.levels 0 (L - 1), M.convs[(L - 1) * 2]?, M.sampleRadii[L - 1]?, M.convRadii[L - 1]?, M.bns.reverse[1]?,
      M.denses.reverse[1]?, M.bns.reverse[0]?, M.denses.reverse[0]? with
  | some ls, some (.inl c), some s, some r, some b1, some d1, some b2, some d2 =>
    some ⟨ls, c.1, s, r, ⟨b1.1, d1.1, b2.1, d2.1⟩⟩
  | _, _, _, _, _, _, _, _ => none

/-! ### Checkpoints -/

/-- Variables of a batch normalisation of `c` features: also the moving moments are stored. -/
noncomputable def BNorm.save (c : ℕ) (bn : BNorm) : List (List ℝ) :=
  [var2 1 c (fun _ => bn.gamma), var2 1 c (fun _ => bn.beta), var2 1 c (fun _ => bn.mean), var2 1 c (fun _ => bn.var)]

/-- Assignment of stored numbers. -/
noncomputable def BNorm.load (c : ℕ) (bn : BNorm) (vs : List (List ℝ)) : Option BNorm :=
  match vs with
  | [g, b, m, v] =>
    if g.length = 1 * c ∧ b.length = 1 * c ∧ m.length = 1 * c ∧ v.length = 1 * c then
      some ⟨unVar2 c g 0, unVar2 c b 0, unVar2 c m 0, unVar2 c v 0, bn.eps⟩
    else none
  | _ => none

/-- Variables of `Conv1x1` and `Dense` with `c` output features. -/
noncomputable def Lin.save (c : ℕ) (l : Lin) : List (List ℝ) := conv1x1Save l.cin c l.w l.b

/-- Assignment of stored numbers. -/
noncomputable def Lin.load (c : ℕ) (l : Lin) (vs : List (List ℝ)) : Option Lin :=
  match vs with
  | [w, b] => if w.length = l.cin * c ∧ b.length = 1 * c then some ⟨l.cin, unVar2 c w, unVar2 c b 0⟩ else none
  | _ => none

/-- Variables of a convolution with `c` output features. -/
noncomputable def NetConv.save (c : ℕ) : NetConv 3 → List (List ℝ)
  | .mc L => L.save 3
  | .pc L => L.save 3 c
  | .kp L => L.save c

/-- Assignment of stored numbers. -/
noncomputable def NetConv.load (c : ℕ) (L : NetConv 3) (vs : List (List ℝ)) : Option (NetConv 3) :=
  match L with
  | .mc L => (L.load 3 vs).map .mc
  | .pc L => (L.load 3 c vs).map .pc
  | .kp L => (L.load c vs).map .kp

/-- What is stored, by list and position. -/
structure SmallCkpt where
  convs : List (List (List ℝ))
  bns : List (List (List ℝ))
  denses : List (List (List ℝ))

/-- Variables of an entry of `conv_layers`. -/
noncomputable def saveConv (x : (NetConv 3 × ℕ) ⊕ (Lin × ℕ)) : List (List ℝ) :=
  match x with
  | .inl c => c.1.save c.2
  | .inr l => l.1.save l.2

/-- `save_weights`. -/
noncomputable def SmallObj.save (M : SmallObj) : SmallCkpt where
  convs := M.convs.map saveConv
  bns := M.bns.map (fun b => b.1.save b.2)
  denses := M.denses.map (fun l => l.1.save l.2)

/-- Assignment of stored numbers to an entry of `conv_layers`. -/
noncomputable def loadConv (x : (NetConv 3 × ℕ) ⊕ (Lin × ℕ)) (vs : List (List ℝ)) : Option ((NetConv 3 × ℕ) ⊕ (Lin × ℕ)) :=
  match x with
  | .inl c => (c.1.load c.2 vs).map (fun c' => .inl (c', c.2))
  | .inr l => (l.1.load l.2 vs).map (fun l' => .inr (l', l.2))

/-- Assignment entry by entry; a layer without stored numbers is an error here (TensorFlow leaves it unchanged and warns). -/
def assignAll {X : Type} (load : X → List (List ℝ) → Option X) : List X → List (List (List ℝ)) → Option (List X)
  | [], _ => some []
  | x :: xs, v :: vs =>
    match load x v, assignAll load xs vs with
    | some y, some ys => some (y :: ys)
    | _, _ => none
  | _ :: _, [] => none

/-- `load_weights`. -/
noncomputable def SmallObj.load (M : SmallObj) (C : SmallCkpt) : Option SmallObj :=
  match assignAll loadConv M.convs C.convs,
      assignAll (fun b vs => (b.1.load b.2 vs).map (fun b' => (b', b.2))) M.bns C.bns,
      assignAll (fun l vs => (l.1.load l.2 vs).map (fun l' => (l', l.2))) M.denses C.denses with
  | some cs, some bs, some ds => some ⟨cs, bs, ds, M.sampleRadii, M.convRadii⟩
  | _, _, _ => none

end PC
