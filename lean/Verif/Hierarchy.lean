import Verif.Sampling

/-!
# Point hierarchies (`pylib/pc/PointHierarchy.py`)
-/

set_option linter.unusedVariables false

namespace PC

/-- Completion of a cell size argument (PointHierarchy.py:60-74).
`tf.gather(shape, 0)` raises for a scalar.  `tf.gather(cur_cell_sizes,
[rank - 1])` reads entry 0 of a vector (its rank is 1); too many entries are
rejected by `tf.assert_greater`.  Simplification: arguments of rank at least 2
are not modelled (they fail later); `unsupported` here is an error value. -/
def completeCellSizes {K : Type*} (D : ℕ) (a : Arg K) : Except Err (List K) :=
  match a.shape with
  | [m] =>
    if m < D then
      match a.vals[1 - 1]? with
      | none => .error .invalidArgument
      | some v => .ok (a.vals ++ List.replicate (D - m) v)
    else if m < D + 1 then .ok a.vals
    else .error .invalidArgument
  | _ => .error .invalidArgument

section
variable {K : Type*} [Field K] [LinearOrder K] [FloorRing K] {k : ℕ}

/-- The state of a `PointHierarchy`: `_point_clouds`, `_cell_sizes`,
`_neighborhoods`, `_batch_shape`. -/
structure Hier (k : ℕ) (K : Type*) [Field K] [LinearOrder K] where
  clouds : List (CloudObj (Fin (k + 2) → K))
  cellSizes : List (Fin (k + 2) → K)
  nbhs : List (Nbh k K)
  batchShape : Option (List ℕ)

/-- A vector read as a function of the dimension. -/
def vecOf {D : ℕ} (l : List K) : Fin D → K := fun d => l.getD d.val 0

/-- One iteration of the constructor's loop (PointHierarchy.py:54-98): `o` is
`cur_point_cloud`.  The outcomes are the new cloud, cell sizes and
neighbourhood, or an exception.  The grid uses the current cloud's own bounding
box (its `aabb` argument is ignored, Grid.py:42). -/
inductive LevelStep (dev : Device) (eps : K) (lower : String → String) (mode : String)
    (bs : Option (List ℕ)) (o : CloudObj (Fin (k + 2) → K)) (a : Arg K) :
    Except Err (CloudObj (Fin (k + 2) → K) × (Fin (k + 2) → K) × Nbh k K) → Prop
  | badSizes (e) : completeCellSizes (k + 2) a = .error e → LevelStep dev eps lower mode bs o a (.error e)
  | badSearch (l e) : completeCellSizes (k + 2) a = .ok l →
      Nbh.new dev ⟨o.c, vecOf l, eps⟩ (vecOf l) none = .error e →
      LevelStep dev eps lower mode bs o a (.error e)
  | badSample (l h e) : completeCellSizes (k + 2) a = .ok l →
      Nbh.new dev ⟨o.c, vecOf l, eps⟩ (vecOf l) none = .ok h →
      SampleResult h lower mode (.error e) → LevelStep dev eps lower mode bs o a (.error e)
  | badShape (l h c e) : completeCellSizes (k + 2) a = .ok l →
      Nbh.new dev ⟨o.c, vecOf l, eps⟩ (vecOf l) none = .ok h →
      SampleResult h lower mode (.ok c) →
      ((CloudObj.ofCloud c).setBatchShape bs).1 = .error e →
      LevelStep dev eps lower mode bs o a (.error e)
  | ok (l h c) : completeCellSizes (k + 2) a = .ok l →
      Nbh.new dev ⟨o.c, vecOf l, eps⟩ (vecOf l) none = .ok h →
      SampleResult h lower mode (.ok c) →
      ((CloudObj.ofCloud c).setBatchShape bs).1 = .ok () →
      LevelStep dev eps lower mode bs o a (.ok (((CloudObj.ofCloud c).setBatchShape bs).2, vecOf l, h))

/-- The loop over all cell sizes: possible lists of (cloud, sizes,
neighbourhood), or an exception. -/
inductive Levels (dev : Device) (eps : K) (lower : String → String) (mode : String)
    (bs : Option (List ℕ)) : CloudObj (Fin (k + 2) → K) → List (Arg K) →
    Except Err (List (CloudObj (Fin (k + 2) → K) × (Fin (k + 2) → K) × Nbh k K)) → Prop
  | nil (o) : Levels dev eps lower mode bs o [] (.ok [])
  | fail (o a as e) : LevelStep dev eps lower mode bs o a (.error e) →
      Levels dev eps lower mode bs o (a :: as) (.error e)
  | failLater (o a as o' cs h e) : LevelStep dev eps lower mode bs o a (.ok (o', cs, h)) →
      Levels dev eps lower mode bs o' as (.error e) →
      Levels dev eps lower mode bs o (a :: as) (.error e)
  | cons (o a as o' cs h rest) : LevelStep dev eps lower mode bs o a (.ok (o', cs, h)) →
      Levels dev eps lower mode bs o' as (.ok rest) →
      Levels dev eps lower mode bs o (a :: as) (.ok ((o', cs, h) :: rest))

/-- `PointHierarchy(point_cloud, cell_sizes, sample_mode)`
(PointHierarchy.py:40-98): the possible results. -/
def HierNew (dev : Device) (eps : K) (lower : String → String) (mode : String)
    (o : CloudObj (Fin (k + 2) → K)) (sizes : List (Arg K)) (res : Except Err (Hier k K)) : Prop :=
  (∃ ls, Levels dev eps lower mode o.batchShape o sizes (.ok ls) ∧
    res = .ok ⟨o :: ls.map (·.1), ls.map (·.2.1), ls.map (·.2.2), o.batchShape⟩) ∨
  (∃ e, Levels dev eps lower mode o.batchShape o sizes (.error e) ∧ res = .error e)

/-- Indexing of a python list with a possibly negative index. -/
def pyGet {β : Type*} (l : List β) (i : ℤ) : Except Err β :=
  let j := if i < 0 then i + l.length else i
  if j < 0 then .error .indexError
  else match l[j.toNat]? with
    | none => .error .indexError
    | some x => .ok x

namespace Hier

/-- `__getitem__` for integers (PointHierarchy.py:184-185). -/
def get (H : Hier k K) (i : ℤ) : Except Err (CloudObj (Fin (k + 2) → K)) := pyGet H.clouds i

/-- `__len__` (PointHierarchy.py:187-188). -/
def len (H : Hier k K) : ℕ := H.clouds.length

/-- `get_points(batch_id)` for an integer (PointHierarchy.py:100-122): the
parameter `max_num_points` is not used. -/
def getPoints (H : Hier k K) (id : ℤ) : Except Err (List (List (Fin (k + 2) → K))) :=
  collect (H.clouds.map (fun o => o.getPointsId id))

/-- A loop calling a method of each cloud in turn; an exception ends the loop,
later clouds are untouched. -/
def loopAll {β α : Type*} (f : CloudObj α → Except Err β × CloudObj α) :
    List (CloudObj α) → Except Err (List β) × List (CloudObj α)
  | [] => (.ok [], [])
  | o :: os =>
    match f o with
    | (.error e, o') => (.error e, o' :: os)
    | (.ok b, o') =>
      match loopAll f os with
      | (.error e, os') => (.error e, o' :: os')
      | (.ok bs, os') => (.ok (b :: bs), o' :: os')

/-- `get_points()` without id (PointHierarchy.py:119-122): padded views; the
argument `max_num_points` is not passed on. -/
def getPointsPadded (H : Hier k K) (maxNumPoints : Option ℕ) :
    Except Err (List (List ℕ × List (List (Fin (k + 2) → K)))) × Hier k K :=
  let r := loopAll (fun o => o.getPointsPadded none) H.clouds
  (r.1, { H with clouds := r.2 })

/-- `get_sizes` (PointHierarchy.py:124-138). -/
def getSizes (H : Hier k K) : Except Err (List (List ℕ × List ℕ)) × Hier k K :=
  let r := loopAll (fun o => o.getSizes) H.clouds
  (r.1, { H with clouds := r.2 })

/-- `set_batch_shape` (PointHierarchy.py:140-157): applied to the levels one
after the other; `self._batch_shape` is not updated. -/
def setBatchShape (H : Hier k K) (shape : Option (List ℕ)) : Except Err Unit × Hier k K :=
  let r := loopAll (fun o => o.setBatchShape shape) H.clouds
  (r.1.map (fun _ => ()), { H with clouds := r.2 })

/-- `get_neighborhood(i, transposed)` with an integer (PointHierarchy.py:178-182). -/
def getNeighborhood (dev : Device) (H : Hier k K) (i : ℤ) (transposed : Bool) :
    Except Err (Nbh k K) :=
  match pyGet H.nbhs i with
  | .error e => .error e
  | .ok h => if transposed then h.transpose dev else .ok h

/-- `get_neighborhood(None, transposed)` (PointHierarchy.py:173-177):
`nb.transposed()` does not exist, the attribute error is raised for the first
neighbourhood (`typeError` stands for it). -/
def getNeighborhoods (H : Hier k K) (transposed : Bool) : Except Err (List (Nbh k K)) :=
  if transposed then
    match H.nbhs with
    | [] => .ok []
    | _ :: _ => .error .typeError
  else .ok H.nbhs

end Hier

end
end PC
