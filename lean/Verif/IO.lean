import Verif.PointCloud

/-!
# Loading point clouds from files (pylib/io/points.py)

The text of a file is a list of characters, the file system a partial function
from names to texts.  `num` is the number parser of `tf.strings.to_number` /
numpy (`none`: not a number).  Rows of a tensor are lists.
-/

set_option linter.unusedVariables false

namespace PC

/-- Iteration over a text file (`for line in in_file`): the lines with their
terminating newline; the last one may have none. -/
def fileLines : List Char → List (List Char)
  | [] => []
  | c :: cs =>
    if c = '\n' then ['\n'] :: fileLines cs
    else match fileLines cs with
      | [] => [[c]]
      | l :: ls => (c :: l) :: ls

/-- The loop of `str.split`: leftmost occurrences of the delimiter; `skip` is the
number of characters of the last found delimiter still to be skipped. -/
def splitAux (d : List Char) : ℕ → List Char → List (List Char)
  | _, [] => [[]]
  | skip + 1, _ :: cs => splitAux d skip cs
  | 0, c :: cs =>
    if d.isPrefixOf (c :: cs) then [] :: splitAux d (d.length - 1) cs
    else match splitAux d 0 cs with
      | [] => [[c]]
      | l :: ls => (c :: l) :: ls

/-- `s.split(d)`; an empty separator raises `ValueError`. -/
def pySplit (d s : List Char) : Except Err (List (List Char)) :=
  if d = [] then .error .valueError else .ok (splitAux d 0 s)

/-- `line[:-1].split(delimiter)` for the lines that are read (points.py:52-53,
101-102). -/
def splitLines (d : List Char) : List (List Char) → Except Err (List (List (List Char)))
  | [] => .ok []
  | l :: ls =>
    match pySplit d l.dropLast with
    | .error e => .error e
    | .ok r =>
      match splitLines d ls with
      | .error e => .error e
      | .ok rs => .ok (r :: rs)

/-- The points collected from the split lines (points.py:54, 103). -/
def rawPoints {β : Type*} (dim : ℕ) (rows : List (List β)) : List (List β) := rows.map (List.take dim)

/-- The features collected: only from lines with more than three elements,
whatever `dimension` is (points.py:55-56, 104-105). -/
def rawFeatures {β : Type*} (dim : ℕ) (rows : List (List β)) : List (List β) :=
  (rows.filter (fun r => decide (3 < r.length))).map (List.drop dim)

/-- All rows have the length of the first one. -/
def rectangular {β : Type*} (rows : List (List β)) : Bool :=
  rows.all (fun r => r.length == (rows.head?.map List.length).getD 0)

/-- Element-wise parsing. -/
def parseRows {K : Type*} (num : List Char → Option K) (rows : List (List (List Char))) :
    Option (List (List K)) :=
  rows.mapM (fun r => r.mapM num)

/-- `tf.convert_to_tensor` and `tf.strings.to_number` (points.py:58-61).  Ragged
lists raise `ValueError`.  A list without elements becomes a `float32` tensor,
which `to_number` rejects, as it does strings that are no numbers. -/
def toNumberTensor {K : Type*} (num : List Char → Option K) (rows : List (List (List Char))) :
    Except Err (List (List K)) :=
  if rectangular rows = false then .error .valueError
  else if rows.flatten = [] then .error .invalidArgument
  else match parseRows num rows with
    | none => .error .invalidArgument
    | some v => .ok v

/-- `np.array(rows, dtype)` (points.py:110-111): ragged lists and strings that are
no numbers raise `ValueError`. -/
def toNumpy {K : Type*} (num : List Char → Option K) (rows : List (List (List Char))) :
    Except Err (List (List K)) :=
  if rectangular rows = false then .error .valueError
  else match parseRows num rows with
    | none => .error .valueError
    | some v => .ok v

/-- The `filename` argument: a string or something else. -/
inductive PathArg
  | str (s : String)
  | other

/-- Opening the file (points.py:48-50, 63-65). -/
def openFile (fs : String → Option (List Char)) : PathArg → Except Err (List Char)
  | .other => .error .typeError
  | .str s =>
    match fs s with
    | none => .error .fileNotFound
    | some t => .ok t

/-- `load_points_from_file_to_tensor` (points.py:23-65).  Simplification:
`dimension` is not negative. -/
def loadTensor {K : Type*} (fs : String → Option (List Char)) (num : List Char → Option K) (file : PathArg)
    (d : List Char) (dim : ℕ) : Except Err (List (List K) × List (List K)) :=
  match openFile fs file with
  | .error e => .error e
  | .ok t =>
    match splitLines d (fileLines t) with
    | .error e => .error e
    | .ok rows =>
      -- both conversions to tensors come before the parsing
      if rectangular (rawPoints dim rows) = false then .error .valueError
      else if rectangular (rawFeatures dim rows) = false then .error .valueError
      else match toNumberTensor num (rawPoints dim rows) with
        | .error e => .error e
        | .ok p =>
          match toNumberTensor num (rawFeatures dim rows) with
          | .error e => .error e
          | .ok f => .ok (p, f)

/-- The lines read by the loop with the counter `i` (points.py:97-108): without
`max_num_points` the condition is false for the first line. -/
def limitLines (maxNum : Option ℤ) : ℤ → List (List Char) → List (List Char)
  | _, [] => []
  | i, l :: ls =>
    match maxNum with
    | none => []
    | some m => if i < m then l :: limitLines maxNum (i + 1) ls else []

/-- `load_points_from_file_to_numpy` (points.py:68-115). -/
def loadNumpy {K : Type*} (fs : String → Option (List Char)) (num : List Char → Option K) (file : PathArg)
    (d : List Char) (dim : ℕ) (maxNum : Option ℤ) : Except Err (List (List K) × List (List K)) :=
  match openFile fs file with
  | .error e => .error e
  | .ok t =>
    match splitLines d (limitLines maxNum 0 (fileLines t)) with
    | .error e => .error e
    | .ok rows =>
      match toNumpy num (rawPoints dim rows) with
      | .error e => .error e
      | .ok p =>
        match toNumpy num (rawFeatures dim rows) with
        | .error e => .error e
        | .ok f => .ok (p, f)

/-! ### Batches -/

/-- The shape `tf.reshape` produces for `total` elements: at most one entry -1,
which is inferred (an error if the other entries contain a 0); other negative
entries and a wrong number of elements are errors. -/
def reshapeShape (total : ℕ) (shape : List ℤ) : Except Err (List ℕ) :=
  if 1 < shape.count (-1) ∨ ∃ x ∈ shape, x < -1 then .error .invalidArgument
  else
    let p := (shape.filter (fun x => decide (x ≠ -1))).map Int.toNat |>.prod
    if -1 ∈ shape then
      if p = 0 ∨ total % p ≠ 0 then .error .invalidArgument
      else .ok (shape.map (fun x => if x = -1 then total / p else x.toNat))
    else if p = total then .ok (shape.map Int.toNat)
    else .error .invalidArgument

/-- Blocks of `V` rows of a list of rows. -/
def chunk {β : Type*} (V : ℕ) : ℕ → List β → List (List β)
  | 0, _ => []
  | b + 1, l => l.take V :: chunk V b (l.drop V)

/-- `tf.concat((rows, tf.zeros([pad, cols])), axis=0)`: raises if the rows do not
have `cols` columns.  (The row tensors here are never empty.) -/
def padRows {K : Type*} [Zero K] (pad cols : ℕ) (rows : List (List K)) : Except Err (List (List K)) :=
  if ∀ r ∈ rows, r.length = cols then .ok (rows ++ List.replicate pad (List.replicate cols 0))
  else .error .invalidArgument

/-- The padding loop for points and features (points.py:160-167). -/
def padAll {K : Type*} [Zero K] (V pd fd : ℕ) :
    List (List (List K) × List (List K)) → Except Err (List (List (List K)) × List (List (List K)))
  | [] => .ok ([], [])
  | (p, f) :: rest =>
    match padRows (V - p.length) pd p with
    | .error e => .error e
    | .ok p' =>
      match padRows (V - p.length) fd f with
      | .error e => .error e
      | .ok f' =>
        match padAll V pd fd rest with
        | .error e => .error e
        | .ok (ps, fs) => .ok (p' :: ps, f' :: fs)

/-- `tf.stack` followed by `tf.reshape(.., batch_shape + [V, cols])`: the batch
shape of the result and its blocks of `V` rows.  `tf.stack` raises if the
tensors differ in shape (here: in the number of rows). -/
def stackReshape {K : Type*} (V cols : ℕ) (shape : List ℤ) (ts : List (List (List K))) :
    Except Err (List ℕ × List (List (List K))) :=
  if rectangular ts = false then .error .invalidArgument
  else
    match reshapeShape (ts.flatten.length * cols) (shape ++ [(V : ℤ), (cols : ℤ)]) with
    | .error e => .error e
    | .ok sh =>
      let bs := sh.take shape.length
      .ok (bs, chunk V bs.prod ts.flatten)

/-- Loading all files (points.py:148-153). -/
def loadAll {α : Type*} (load : PathArg → Except Err α) : List PathArg → Except Err (List α)
  | [] => .ok []
  | f :: fs =>
    match load f with
    | .error e => .error e
    | .ok x =>
      match loadAll load fs with
      | .error e => .error e
      | .ok xs => .ok (x :: xs)

/-- The result of the batch loader: points and features with their batch shapes,
sizes with their shape. -/
structure Batch (K : Type*) where
  points : List ℕ × List (List (List K))
  features : List ℕ × List (List (List K))
  sizes : List ℕ × List ℕ
  deriving DecidableEq

/-- `load_batch_of_points` (points.py:118-178).  The files are loaded with the
default `dimension=3`, whatever `point_dimension` is (l. 149-150). -/
def loadBatch {K : Type*} [Zero K] (fs : String → Option (List Char)) (num : List Char → Option K)
    (files : List PathArg) (shape : List ℤ) (d : List Char) (pd : ℕ) : Except Err (Batch K) :=
  if shape ≠ [-1] ∧ shape.prod ≠ (files.length : ℤ) then .error .valueError
  else
    match loadAll (fun f => loadTensor fs num f d 3) files with
    | .error e => .error e
    | .ok [] => .error .indexError       -- `features[0]`
    | .ok (x :: xs) =>
      let sizes := (x :: xs).map (fun y => y.1.length)
      let V := sizes.foldr max 0
      let fd := (x.2.head?.map List.length).getD 0
      match padAll V pd fd (x :: xs) with
      | .error e => .error e
      | .ok (ps, fts) =>
        match stackReshape V pd shape ps with
        | .error e => .error e
        | .ok p =>
          match stackReshape V fd shape fts with
          | .error e => .error e
          | .ok f =>
            match reshapeShape sizes.length shape with
            | .error e => .error e
            | .ok ss => .ok ⟨p, f, ss, sizes⟩

/-- `load_batch_of_meshes` (points.py:181-222) given the vertices of the meshes
(rows of three coordinates); the mesh reader is library code.  `tf.stack` of an
empty list raises `ValueError`, but `tf.reduce_max` of no sizes comes first and
gives a float, so that the failure is of another kind; reported as
`valueError`. -/
def meshBatch {K : Type*} [Zero K] (meshes : List (List (List K))) (shape : List ℤ) :
    Except Err ((List ℕ × List (List (List K))) × List ℕ × List ℕ) :=
  let sizes := meshes.map List.length
  let V := sizes.foldr max 0
  match loadAllRows V meshes with
  | .error e => .error e
  | .ok [] => .error .valueError
  | .ok ts =>
    match stackReshape V 3 shape ts with
    | .error e => .error e
    | .ok p =>
      match reshapeShape sizes.length shape with
      | .error e => .error e
      | .ok ss => .ok (p, ss, sizes)
where
  /-- The padding loop (points.py:215-218). -/
  loadAllRows (V : ℕ) : List (List (List K)) → Except Err (List (List (List K)))
    | [] => .ok []
    | m :: ms =>
      match padRows (V - m.length) 3 m with
      | .error e => .error e
      | .ok t =>
        match loadAllRows V ms with
        | .error e => .error e
        | .ok ts => .ok (t :: ts)

end PC
