import Verif.Features

/-!
# Layers called one after the other, with features in any of the layouts

Every layer (Conv1x1.py:96-101, MCConv.py:246-278, PointConv.py:249-281,
KPConv.py:280-315, Pooling.py:144-166, network_blocks.py:124-160, 262-297,
405-465) brings its input to the layout `[N, C]` with `_flatten_features`,
computes, and formats the result with `_format_output`.  The result, whatever
its layout, is what a user passes to the next layer
(pylib/notebooks/Introduction.ipynb, cells 27 and 29).
-/

set_option linter.unusedVariables false

namespace PC
namespace CloudObj
variable {α β : Type*}

/-- `_flatten_features` (pylib/pc/utils.py:75-94): 2-D tensors are taken as they
are, tensors of higher rank are flattened. -/
def layerInput (o : CloudObj α) : Formatted β → Except Err (Fin o.c.n → β)
  | .rows r => o.flattenFeatures2D r
  | .padded _ blocks => (o.flattenFeatures blocks).1

/-- Call of a layer with the computation `F` on the clouds `o`, `o'`. -/
def layerCall [Zero β] (o o' : CloudObj α) (F : (Fin o.c.n → β) → Except Err (Fin o'.c.n → β))
    (returnSorted returnPadded : Bool) (x : Formatted β) : Except Err (Formatted β) :=
  match o.layerInput x with
  | .error e => .error e
  | .ok f =>
    match F f with
    | .error e => .error e
    | .ok g => o'.formatOutput g returnSorted returnPadded

end CloudObj

/-- Layers called one after the other: `call F rs rp h h'` goes from the cloud
`c` to the cloud `c'`; `h`, `h'` are the methods that were called on the two
`PointCloud` objects before. -/
inductive Pipeline (α β : Type*) : Cloud α → Type _
  | done (c : Cloud α) : Pipeline α β c
  | call {c c' : Cloud α} (F : (Fin c.n → β) → Except Err (Fin c'.n → β)) (returnSorted returnPadded : Bool)
      (h h' : List CloudObj.Call) (rest : Pipeline α β c') : Pipeline α β c

/-- The rows of a tensor on a cloud as rows on a cloud with the same number of
points. -/
def recast {β : Type*} {n m : ℕ} (e : n = m) (f : Fin n → β) : Fin m → β := fun i => f (Fin.cast e.symm i)

/-- The computation of a layer on tensors with the numbers of rows of the
`PointCloud` objects. -/
def recastLayer {β : Type*} {n m n' m' : ℕ} (e : n = m) (e' : n' = m')
    (F : (Fin m → β) → Except Err (Fin m' → β)) (f : Fin n → β) : Except Err (Fin n' → β) :=
  match F (recast e f) with
  | .error e => .error e
  | .ok g => .ok (recast e'.symm g)

/-- The program: every layer is called with the output of the one before. -/
def Pipeline.run {α β : Type*} [Zero α] [Zero β] {c : Cloud α} :
    Pipeline α β c → CloudObj.Formatted β → Except Err (CloudObj.Formatted β)
  | .done _, x => .ok x
  | .call (c := c) (c' := c') F rs rp h h' rest, x =>
    let o := (CloudObj.ofCloud c).afterAll h
    let o' := (CloudObj.ofCloud c').afterAll h'
    if e : o.c.n = c.n ∧ o'.c.n = c'.n then
      match CloudObj.layerCall o o' (recastLayer e.1 e.2 F) rs rp x with
      | .error e => .error e
      | .ok y => rest.run y
    else .error .invalidArgument

end PC
