import Verif.Layers
import Verif.Kernel

/-!
# Variables of the layers: numbers stored by a checkpoint and reading them back

`model.save_weights` (modelnet40_small.py:432) stores the values of all `tf.Variable`s that are
attributes of the model or of its layers; `load_weights` (modelnet40_small.py:442) assigns them to the variables of
a model constructed again with the same arguments.  Tensors that are not variables are neither stored nor
assigned.  Variables are stored by the path of the attribute; the model lists them in a fixed order.
-/

set_option linter.unusedVariables false

namespace PC

section
variable {K : Type*} [Field K]

/-- The numbers of a variable of shape `[a, b]`, row by row. -/
def var2 (a b : ℕ) (w : ℕ → ℕ → K) : List K := (List.range (a * b)).map (fun t => w (t / b) (t % b))

/-- The numbers of a variable of shape `[a, b, c]`. -/
def var3 (a b c : ℕ) (w : ℕ → ℕ → ℕ → K) : List K :=
  (List.range (a * b * c)).map (fun t => w (t / c / b) (t / c % b) (t % c))

/-- A variable with rows of length `b` from its numbers. -/
def unVar2 (b : ℕ) (l : List K) (i j : ℕ) : K := l.getD (i * b + j) 0

/-- A variable of shape `[_, b, c]` from its numbers. -/
def unVar3 (b c : ℕ) (l : List K) (i j k : ℕ) : K := l.getD ((i * b + j) * c + k) 0

/-! ### MCConv -/

/-- The variables of the kernel MLPs (MCConv.py:98-120), `prev` is the number of inputs of the first layer. -/
def mlpSave (mlps : ℕ) : ℕ → List (MlpLayer K) → List (List K)
  | _, [] => []
  | prev, l :: ls => var3 mlps prev l.size l.w :: var2 mlps l.size l.b :: mlpSave mlps l.size ls

/-- The variables of an `MCConv` layer (MCConv.py:95-135). -/
def MCLayer.save (D : ℕ) (L : MCLayer K) : List (List K) :=
  mlpSave L.mlps D L.layers ++ [var3 L.mlps (L.hid * L.cin) (L.cout / L.mlps) L.final]

/-- Assignment of stored numbers to the variables of the MLPs; fails if a shape differs.  Returned are the layers
and the remaining variables. -/
def mlpLoad (mlps : ℕ) : ℕ → List (MlpLayer K) → List (List K) → Option (List (MlpLayer K) × List (List K))
  | _, [], vs => some ([], vs)
  | prev, l :: ls, v :: b :: vs =>
    if v.length = mlps * prev * l.size ∧ b.length = mlps * l.size then
      (mlpLoad mlps l.size ls vs).map
        (fun r => ({ l with w := unVar3 prev l.size v, b := unVar2 l.size b } :: r.1, r.2))
    else none
  | _, _ :: _, _ => none

/-- Assignment of stored numbers to the variables of an `MCConv` layer. -/
def MCLayer.load (D : ℕ) (L : MCLayer K) (vs : List (List K)) : Option (MCLayer K) :=
  match mlpLoad L.mlps D L.layers vs with
  | some (ls, [v]) =>
    if v.length = L.mlps * (L.hid * L.cin) * (L.cout / L.mlps) then
      some { L with layers := ls, final := unVar3 (L.hid * L.cin) (L.cout / L.mlps) v }
    else none
  | _ => none

/-! ### PointConv -/

/-- The variables of a `PointConv` layer with `cout` output features (PointConv.py:87-141). -/
def PCLayer.save (D cout : ℕ) (L : PCLayer K) : List (List K) :=
  [var2 D L.hid L.axis, var2 1 L.hid (fun _ => L.bias), var2 (L.hid * L.cin) cout L.weights,
    var2 1 16 (fun _ => L.pw1), var2 16 1 (fun i _ => L.pw2 i), var2 1 16 (fun _ => L.pb1), [L.pb2]]

/-- Assignment of stored numbers to the variables of a `PointConv` layer. -/
def PCLayer.load (D cout : ℕ) (L : PCLayer K) (vs : List (List K)) : Option (PCLayer K) :=
  match vs with
  | [a, b, w, p1, p2, q1, q2] =>
    if a.length = D * L.hid ∧ b.length = 1 * L.hid ∧ w.length = L.hid * L.cin * cout ∧ p1.length = 1 * 16 ∧
        p2.length = 16 * 1 ∧ q1.length = 1 * 16 ∧ q2.length = 1 then
      some { L with
        axis := unVar2 L.hid a, bias := unVar2 L.hid b 0, weights := unVar2 cout w, pw1 := unVar2 16 p1 0,
        pw2 := fun i => unVar2 1 p2 i 0, pb1 := unVar2 16 q1 0, pb2 := unVar2 1 q2 0 0 }
    else none
  | _ => none

end

/-! ### KPConv -/

section
variable {D : ℕ}

/-- The variables of a `KPConv` layer with `cout` output features (KPConv.py:134-163).  The kernel points are not
among them: the product with 0.75 (KPConv.py:132) is a tensor, not a variable. -/
noncomputable def KPLayer.save (cout : ℕ) (L : KPLayer D) : List (List ℝ) :=
  (match L.offs with
    | none => []
    | some wo => [var2 (L.nk * L.cin) (L.nk * D) wo]) ++ [var2 (L.nk * L.cin) cout L.weights]

/-- Assignment of stored numbers to the variables of a `KPConv` layer. -/
noncomputable def KPLayer.load (cout : ℕ) (L : KPLayer D) (vs : List (List ℝ)) : Option (KPLayer D) :=
  match L.offs, vs with
  | none, [w] =>
    if w.length = L.nk * L.cin * cout then some { L with weights := unVar2 cout w } else none
  | some _, [wo, w] =>
    if wo.length = L.nk * L.cin * (L.nk * D) ∧ w.length = L.nk * L.cin * cout then
      some { L with offs := some (unVar2 (L.nk * D) wo), weights := unVar2 cout w }
    else none
  | _, _ => none

/-- The constructor of `KPConv` with `custom_kernel_points` (KPConv.py:94-163). -/
noncomputable def KPLayer.custom (cin nk : ℕ) (interp : Interp) (pts : List (Fin D → ℝ)) (weights : ℕ → ℕ → ℝ)
    (offs : Option (ℕ → ℕ → ℝ)) : KPLayer D :=
  ⟨cin, nk, pts.length, fun b d => pts.getD b 0 d * 0.75, interp, weights, offs⟩

/-- The constructor of `KPConv` with the built-in kernel points (KPConv.py:94-163), which are turned by the random
angles `ang` (KPConv.py:124-125).  Only for three dimensions, otherwise the constructor raises
(KPConv.py:118-120). -/
noncomputable def KPLayer.builtin (cin nk : ℕ) (interp : Interp) (ang : Fin 3 → ℝ) (weights : ℕ → ℕ → ℝ)
    (offs : Option (ℕ → ℕ → ℝ)) : Except Err (KPLayer 3) :=
  match sphericalKernelPoints nk (some ang) with
  | .error e => .error e
  | .ok pts => .ok (KPLayer.custom cin nk interp pts weights offs)

end

/-! ### Conv1x1 -/

/-- The variables of a `Conv1x1` layer (Conv1x1.py:50-65) with weights `w` and biases `b`. -/
def conv1x1Save {K : Type*} [Field K] (cin cout : ℕ) (w : ℕ → ℕ → K) (b : ℕ → K) : List (List K) :=
  [var2 cin cout w, var2 1 cout (fun _ => b)]

/-- The number of stored numbers. -/
def numParams {K : Type*} (vs : List (List K)) : ℕ := (vs.map List.length).sum

end PC
