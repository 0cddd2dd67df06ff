import Verif.Props.Grid
import Verif.Hierarchy

/-!
# The memoised bounding box of a point cloud (`pylib/pc/PointCloud.py:23-65, 235-247`)
-/

set_option linter.unusedVariables false

namespace PC

/-- A `PointCloud` with its attribute `_aabb` (PointCloud.py:111).  Of the `_AABB` object only `_batch_shape`
(line 35) is kept: points, ids and batch size of a cloud are never changed, so the corners are those of the cloud. -/
structure BoxCloud (α : Type*) where
  obj : CloudObj α
  box : Option (Option (List ℕ))

namespace BoxCloud
variable {α : Type*}

/-- `get_AABB` (PointCloud.py:235-247): the shape stored in the returned box. -/
def getAABB (s : BoxCloud α) : Option (List ℕ) × BoxCloud α :=
  match s.box with
  | some b => (b, s)
  | none => (s.obj.batchShape, { s with box := some s.obj.batchShape })

/-- `get_AABB().get_diameter(ord)` (PointCloud.py:45-65): shape and values in row-major order; `tf.reshape` raises if
the shape does not fit. -/
noncomputable def diam {D : ℕ} (eps : ℝ) (s : BoxCloud (Fin D → ℝ)) (ord : NormOrd) :
    Except Err (List ℕ × List (Option ℝ)) × BoxCloud (Fin D → ℝ) :=
  let vals := (List.range s.obj.c.B).map (fun b => getDiameter eps s.obj.c b ord)
  match s.getAABB with
  | (none, s') => (.ok ([s.obj.c.B], vals), s')
  | (some sh, s') => (if sh.prod = s.obj.c.B then .ok (sh, vals) else .error .invalidArgument, s')

/-- A use of the cloud: a method call of `CloudObj.Call`, or anything that asks for the box: `get_AABB` itself,
`get_diameter`, construction of a `Grid` (Grid.py:42) or of a `PointHierarchy` (PointHierarchy.py:46), `compute_keys`
(custom_ops_tf.py:38, custom_ops_wrapper.py:37). -/
inductive Use
  | call (k : CloudObj.Call)
  | box

/-- State after one use. -/
def after [Zero α] (s : BoxCloud α) : Use → BoxCloud α
  | .call k => { s with obj := s.obj.after k }
  | .box => s.getAABB.2

/-- State after a history of uses. -/
def afterAll [Zero α] (s : BoxCloud α) (h : List Use) : BoxCloud α := h.foldl after s

end BoxCloud

/-- The attributes `_aabb` of the clouds of a hierarchy after its construction: the constructor asks for the box of the
first cloud (PointHierarchy.py:46; `b` is the box it had before) and builds a grid on every cloud but the last
(line 92), each after the batch shape of that cloud was set (line 97). -/
def Hier.boxes {k : ℕ} (H : Hier k ℝ) (b : Option (Option (List ℕ))) : List (Option (Option (List ℕ))) :=
  H.clouds.mapIdx fun i o =>
    if i = 0 then some (b.getD o.batchShape) else if i + 1 < H.clouds.length then some o.batchShape else none

end PC
