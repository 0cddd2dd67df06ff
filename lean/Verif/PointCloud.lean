import Verif.Tensor

/-!
# `pylib/pc/PointCloud.py` and the validation in `pylib/pc/utils.py`

Rows (points or feature vectors) have an arbitrary type `α` with a zero (the
padding value).
-/

set_option linter.unusedVariables false

namespace PC

/-- The immutable content of a `PointCloud`: `_points`, `_batch_ids`,
`_batch_size` (pylib/pc/PointCloud.py:86-150).
Simplification: batch ids are natural numbers (negative ids are excluded). -/
structure Cloud (α : Type*) where
  n : ℕ
  pts : Fin n → α
  batch : Fin n → ℕ
  B : ℕ

namespace Cloud
variable {α : Type*}

/-- All batch ids are below the batch size.  The constructor guarantees this
when it computes the batch size itself (PointCloud.py:148-149). -/
def Valid (c : Cloud α) : Prop := ∀ i, c.batch i < c.B

/-- No batch element is without points. -/
def NoEmpty (c : Cloud α) : Prop := ∀ b < c.B, ∃ i, c.batch i = b

instance (c : Cloud α) : Decidable c.Valid :=
  inferInstanceAs (Decidable (∀ i, c.batch i < c.B))

instance (c : Cloud α) : Decidable c.NoEmpty :=
  inferInstanceAs (Decidable (∀ b < c.B, ∃ i, c.batch i = b))

/-- Indices of the points of batch element `b`, in input order. -/
def members (c : Cloud α) (b : ℕ) : List (Fin c.n) :=
  (List.finRange c.n).filter (fun i => c.batch i = b)

/-- `_sorted_indices_batch` (PointCloud.py:122). -/
def sortedIndicesBatch (c : Cloud α) : Equiv.Perm (Fin c.n) := argsortAsc c.batch

end Cloud

/-! ### Constructor -/

/-- Presence and length of the constructor arguments that
`check_valid_point_cloud_input` inspects. -/
structure CtorShape where
  ndims : ℕ               -- rank of `points`
  numPoints : ℕ           -- points.shape[0]
  hasSizes : Bool
  batchIds : Option ℕ     -- batch_ids.shape[0] if given

/-- `check_valid_point_cloud_input` (pylib/pc/utils.py:21-44), branch by branch. -/
def checkValidInput (a : CtorShape) : Except Err Unit :=
  if a.ndims = 2 ∧ a.hasSizes = false ∧ a.batchIds = none then .error .valueError
  else if a.ndims = 1 then .error .valueError
  else match a.batchIds with
    | some m => if a.ndims = 2 ∧ a.numPoints ≠ m then .error .assertionError else .ok ()
    | none => .ok ()

/-- What the constructor stores for segmented input
(PointCloud.py:141-150): the two tensors need not have equal length. -/
structure RawCloud (α : Type*) where
  pts : List α
  ids : List ℕ
  B : ℕ

/-- `_init_from_segmented` (PointCloud.py:141-150).  `batchSize` is the
optional argument.  `tf.repeat(tf.range(0,B), sizes)` raises when `B` and the
number of sizes differ (unless there is a single size, which is broadcast).
`tf.reduce_max` of an empty id tensor is the smallest int32; adding one gives
a negative number; we return batch size 0 there. -/
def initFromSegmented {α : Type*} (pts : List α) (ids : Option (List ℕ)) (sizes : List ℕ)
    (batchSize : Option ℕ) : Except Err (RawCloud α) :=
  match ids with
  | none =>
    let B := batchSize.getD sizes.length
    if B = sizes.length then .ok ⟨pts, repeatRange sizes, B⟩
    else match sizes with
      | [s] => .ok ⟨pts, repeatRange (List.replicate B s), B⟩
      | _ => .error .invalidArgument
  | some ids =>
    match batchSize with
    | some B => .ok ⟨pts, ids, B⟩
    | none => .ok ⟨pts, ids, match ids.max? with | some m => m + 1 | none => 0⟩

/-- A raw cloud whose two tensors have equal length is a cloud. -/
def RawCloud.toCloud {α : Type*} (r : RawCloud α) (h : r.ids.length = r.pts.length) : Cloud α where
  n := r.pts.length
  pts i := r.pts[i]
  batch i := r.ids[i.val]'(by rw [h]; exact i.isLt)
  B := r.B

/-- `PointCloud.__init__` for 2-D `points` (PointCloud.py:86-122):
validation, then `_init_from_segmented`. -/
def newSegmented {α : Type*} (pts : List α) (ids : Option (List ℕ)) (sizes : Option (List ℕ))
    (batchSize : Option ℕ) : Except Err (RawCloud α) :=
  match checkValidInput ⟨2, pts.length, sizes.isSome, ids.map List.length⟩ with
  | .error e => .error e
  | .ok () => initFromSegmented pts ids (sizes.getD []) batchSize

/-! ### Padded tensors

A padded tensor of shape `[A1,...,An,V,D]` is its batch shape together with
the list of its `A1*...*An` blocks of `V` rows, in row-major order. -/

/-- `flatten_batch_to_2d(data, sizes)` of TensorFlow Graphics: the first
`sizes[b]` rows of every block, concatenated. -/
def flattenRows {α : Type*} (blocks : List (List α)) (sizes : List ℕ) : List α :=
  (blocks.zip sizes).flatMap (fun p => p.1.take p.2)

/-- `scatter_nd(where(sequence_mask(sizes, V)), data, shape)`: consecutive
rows of `data` fill the first `sizes[b]` rows of block `b`, the rest is 0. -/
def scatterRows {α : Type*} [Zero α] (V : ℕ) : List ℕ → List α → List (List α)
  | [], _ => []
  | s :: ss, l =>
    (l.take (min s V) ++ List.replicate (V - min s V) 0) :: scatterRows V ss (l.drop (min s V))

/-- `unflatten_2d_to_batch(data, sizes, max_rows)` of TensorFlow Graphics on
the blocks.  `scatter_nd` raises if the number of mask entries differs from
the number of rows. -/
def unflatten2d {α : Type*} [Zero α] (data : List α) (sizes : List ℕ) (maxRows : Option ℕ) :
    Except Err (List (List α)) :=
  let V := maxRows.getD (sizes.foldr max 0)
  if (sizes.map (fun s => min s V)).sum = data.length then .ok (scatterRows V sizes data)
  else .error .invalidArgument

/-! ### The object with its memoised attributes -/

/-- The closure stored in `_unflatten`. -/
inductive Unflat
  /-- from `flatten_batch_to_2d` in `_init_from_padded` (PointCloud.py:136):
      captured batch shape, sizes and `V` -/
  | padded (shape sizes : List ℕ) (V : ℕ)
  /-- the lambda of `get_unflatten` (PointCloud.py:229-232): captured
      `max_num_points`; sizes are looked up when called -/
  | sorted (maxRows : Option ℕ)
  deriving DecidableEq, Repr

/-- A `PointCloud` object: content and memoised attributes.
`segShape` is the shape of `_get_segment_id` (`none`: attribute not set). -/
structure CloudObj (α : Type*) where
  c : Cloud α
  sizes : Option (List ℕ × List ℕ)    -- `_sizes`: shape and flat values
  batchShape : Option (List ℕ)        -- `_batch_shape`
  segShape : Option (List ℕ)
  unflatten : Option Unflat           -- `_unflatten`

/-- `tf.unique_with_counts`: unique values in order of first occurrence with
their counts. -/
def uniqueWithCounts (ids : List ℕ) : List (ℕ × ℕ) :=
  ids.reverse.dedup.reverse.map (fun b => (b, ids.count b))

/-- The sizes `get_sizes` computes from batch ids (PointCloud.py:199-202). -/
def sizesOfIds (ids : List ℕ) : List ℕ :=
  ((uniqueWithCounts ids).insertionSort (fun a b => a.1 ≤ b.1)).map (·.2)

namespace CloudObj
variable {α : Type*}

/-- A fresh object built from 2-D points and batch ids. -/
def ofCloud (c : Cloud α) : CloudObj α := ⟨c, none, none, none, none⟩

/-- `_init_from_padded` (PointCloud.py:124-139) followed by the rest of the
constructor.  `blocks` has `prod shape` entries of `V` rows each;
`sizes = none` means no padding; the optional `batch_size` argument must equal
the product of the batch shape, otherwise `tf.reshape` raises (line 134).
Given `batch_ids` are overwritten (line 137), so they do not appear. -/
def newPadded (shape : List ℕ) (V : ℕ) (blocks : List (List α)) (sizes : Option (List ℕ))
    (batchSize : Option ℕ) : Except Err (CloudObj α) :=
  let B := batchSize.getD shape.prod
  let sz := sizes.getD (List.replicate shape.prod V)
  if B ≠ shape.prod then .error .invalidArgument
  else
    let flat := flattenRows blocks sz
    let ids := repeatRange sz
    if h : ids.length = flat.length then
      .ok ⟨(⟨flat, ids, B⟩ : RawCloud α).toCloud h, some (shape, sz), some shape, some shape,
        some (.padded shape sz V)⟩
    else .error .invalidArgument

/-- `get_sizes` (PointCloud.py:185-205).  Note that `_sizes` is assigned
before the `tf.reshape` to the batch shape, which raises when the number of
distinct ids is not the product of the batch shape. -/
def getSizes (o : CloudObj α) : Except Err (List ℕ × List ℕ) × CloudObj α :=
  match o.sizes with
  | some s => (.ok s, o)
  | none =>
    let sz := sizesOfIds (List.ofFn o.c.batch)
    match o.batchShape with
    | none => (.ok ([sz.length], sz), { o with sizes := some ([sz.length], sz) })
    | some sh =>
      if sh.prod = sz.length then (.ok (sh, sz), { o with sizes := some (sh, sz) })
      else (.error .invalidArgument, { o with sizes := some ([sz.length], sz) })

/-- `get_unflatten` (PointCloud.py:207-233): only the first call's
`max_num_points` is captured. -/
def getUnflatten (o : CloudObj α) (maxNumPoints : Option ℕ) : Unflat × CloudObj α :=
  match o.unflatten with
  | some u => (u, o)
  | none => (.sorted maxNumPoints, { o with unflatten := some (.sorted maxNumPoints) })

/-- Applying the stored closure to per-point data (PointCloud.py:183, 229-232;
for padded clouds the `scatter_nd` closure of `flatten_batch_to_2d`).
The result is the batch shape and the blocks. -/
def applyUnflatten {β : Type*} [Zero β] (o : CloudObj α) (u : Unflat) (data : Fin o.c.n → β) :
    Except Err (List ℕ × List (List β)) × CloudObj α :=
  match u with
  | .padded shape sizes V => (.ok (shape, scatterRows V sizes (List.ofFn data)), o)
  | .sorted maxRows =>
    match o.getSizes with
    | (.error e, o') => (.error e, o')
    | (.ok (sh, sz), o') =>
      match unflatten2d (List.ofFn (data ∘ o.c.sortedIndicesBatch)) sz maxRows with
      | .error e => (.error e, o')
      | .ok blocks => (.ok (sh, blocks), o')

/-- `get_points()` without id (PointCloud.py:183). -/
def getPointsPadded [Zero α] (o : CloudObj α) (maxNumPoints : Option ℕ) :
    Except Err (List ℕ × List (List α)) × CloudObj α :=
  let o' := (o.getUnflatten maxNumPoints).2
  o'.applyUnflatten (o.getUnflatten maxNumPoints).1 o'.c.pts

/-- `get_points(id)` for an `int` id (PointCloud.py:179-181); the comparison is
the code's `id > self._batch_size`. -/
def getPointsId (o : CloudObj α) (id : ℤ) : Except Err (List α) :=
  if id > (o.c.B : ℤ) then .error .indexError
  else .ok (((List.finRange o.c.n).filter (fun i => (o.c.batch i : ℤ) = id)).map o.c.pts)

/-- Row-major index of a multi index in a shape; `none` if out of range or of
wrong rank. -/
def rowMajor : List ℕ → List ℕ → Option ℕ
  | [], [] => some 0
  | s :: ss, i :: is =>
    if i < s then (rowMajor ss is).map (fun r => i * ss.prod + r) else none
  | _, _ => none

/-- `get_points(id)` for a tuple (PointCloud.py:174-181): entry of
`_get_segment_id`, the range `0..B-1` reshaped to the batch shape.
Simplification: only full multi indices with non-negative entries. -/
def getPointsTuple (o : CloudObj α) (ix : List ℕ) : Except Err (List α) :=
  match o.segShape with
  | none => .error .typeError      -- AttributeError: `_get_segment_id`
  | some sh =>
    match rowMajor sh ix with
    | none => .error .indexError   -- tensor slice out of bounds
    | some id => o.getPointsId id

/-- `set_batch_shape` (PointCloud.py:249-281). Reshaping `_sizes` raises if
their number is not the product of the new shape (line 279), after the batch
shape was already set. -/
def setBatchShape (o : CloudObj α) (shape : Option (List ℕ)) : Except Err Unit × CloudObj α :=
  match shape with
  | none => (.ok (), { o with batchShape := none })
  | some sh =>
    if sh.prod = o.c.B then
      let o' : CloudObj α := { o with batchShape := some sh, segShape := some sh }
      match o.sizes with
      | none => (.ok (), o')
      | some (_, sz) =>
        if sh.prod = sz.length then (.ok (), { o' with sizes := some (sh, sz) })
        else (.error .invalidArgument, o')
    else (.error .invalidArgument, o)

/-- A method call on the object. -/
inductive Call
  | getSizes
  | getPadded (maxNumPoints : Option ℕ)
  | getId (id : ℤ)
  | getUnflatten (maxNumPoints : Option ℕ)
  | setBatchShape (shape : Option (List ℕ))

/-- State after one method call. -/
def after [Zero α] (o : CloudObj α) : Call → CloudObj α
  | .getSizes => o.getSizes.2
  | .getPadded m => (o.getPointsPadded m).2
  | .getId _ => o
  | .getUnflatten m => (o.getUnflatten m).2
  | .setBatchShape s => (o.setBatchShape s).2

/-- State after a history of method calls. -/
def afterAll [Zero α] (o : CloudObj α) (h : List Call) : CloudObj α := h.foldl after o

end CloudObj

end PC
