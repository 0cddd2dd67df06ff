import Verif.PointCloud

/-!
# Feature layout: `_flatten_features` and `_format_output`
-/

set_option linter.unusedVariables false

namespace PC
namespace CloudObj
variable {α β : Type*}

/-- `_flatten_features` on padded features (pylib/pc/utils.py:86-90): flatten
with the cloud's sizes, then gather with the inverse of
`_sorted_indices_batch`.
Simplification: if the flattened tensor does not have one row per point the
model reports an error (TensorFlow raises in the gather or in the next op). -/
def flattenFeatures (o : CloudObj α) (blocks : List (List β)) :
    Except Err (Fin o.c.n → β) × CloudObj α :=
  match o.getSizes with
  | (.error e, o') => (.error e, o')
  | (.ok (_, sz), o') =>
    if h : (flattenRows blocks sz).length = o.c.n then
      (.ok (fun i => (flattenRows blocks sz)[(o.c.sortedIndicesBatch.symm i).val]'(by
        rw [h]; exact (o.c.sortedIndicesBatch.symm i).isLt)), o')
    else (.error .invalidArgument, o')

/-- `_flatten_features` on 2-D features (pylib/pc/utils.py:91-94): the number
of rows must equal the number of points. -/
def flattenFeatures2D (o : CloudObj α) (rows : List β) : Except Err (Fin o.c.n → β) :=
  if h : rows.length = o.c.n then .ok (fun i => rows[i.val]'(by rw [h]; exact i.isLt))
  else .error .invalidArgument

/-- Result of `_format_output`. -/
inductive Formatted (β : Type*)
  | rows (r : List β)
  | padded (shape : List ℕ) (blocks : List (List β))

/-- `_format_output` (pylib/pc/layers/utils.py:22-49). -/
def formatOutput [Zero β] (o : CloudObj α) (f : Fin o.c.n → β) (returnSorted returnPadded : Bool) :
    Except Err (Formatted β) :=
  if returnPadded then
    match o.unflatten with
    | some u =>
      match (o.applyUnflatten u f).1 with
      | .ok (sh, bl) => .ok (.padded sh bl)
      | .error e => .error e
    | none =>
      match (o.applyUnflatten (.sorted none) f).1 with
      | .ok (sh, bl) => .ok (.padded sh bl)
      | .error e => .error e
  else if returnSorted then .ok (.rows (List.ofFn (f ∘ o.c.sortedIndicesBatch)))
  else .ok (.rows (List.ofFn f))

end CloudObj
end PC
