import Verif.IO
import Verif.Neighbors

/-!
# Training scripts (modelnet40.py, modelnet40_small.py): data set, cache,
batches, learning rate

Text is a list of characters, as in `IO`.  A point is a value of type `α` (three
coordinates); a loaded model is a list of points.
-/

set_option linter.unusedVariables false

namespace PC

/-! ### Listing files (modelnet40.py:41-66) -/

/-- `line.replace('\n', '')`. -/
def stripNl (l : List Char) : List Char := l.filter (fun c => decide (c ≠ '\n'))

/-- `category_names` (modelnet40.py:41-44). -/
def categoryNames (text : List Char) : List (List Char) := (fileLines text).map stripNl

/-- `line[:-5]`. -/
def cutSuffix (l : List Char) : List Char := l.take (l.length - 5)

/-- An entry of `train_set` with its label. -/
structure SetEntry where
  path : List Char
  label : ℕ
  deriving DecidableEq

/-- The loop of modelnet40.py:48-55 and 59-66. -/
def readSet (dir : List Char) (names : List (List Char)) : List (List Char) → Except Err (List SetEntry)
  | [] => .ok []
  | l :: ls =>
    let line := stripNl l
    let category := cutSuffix line
    if category ∈ names then
      match readSet dir names ls with
      | .error e => .error e
      | .ok es => .ok (⟨dir ++ category ++ ['/'] ++ line ++ ['.', 't', 'x', 't'], names.idxOf category⟩ :: es)
    else .error .valueError

/-! ### Cached arrays (modelnet40.py:70-117, modelnet40_small.py:70-116) -/

/-- `array[i] = points` for a row of `P` points: numpy broadcasts a single point
and raises `ValueError` for any other number of points than `P`. -/
def assignRow {α : Type*} (P : ℕ) (pts : List α) : Except Err (List α) :=
  if pts.length = P then .ok pts
  else match pts with
    | [p] => .ok (List.replicate P p)
    | _ => .error .valueError

/-- What a run of the script is given: the points of the listed files (as the
loader returns them, C50), `points_per_file`, `quick_test`, and whether the
cached array is cut to `points_per_file` (modelnet40_small.py:74, 98). -/
structure RunCfg (α : Type*) where
  files : List (List α)
  perFile : ℕ
  quick : Bool
  cut : Bool

/-- The array in memory: `none` is a row of `np.empty` never assigned. -/
abbrev Table (α : Type*) := List (Option (List α))

/-- The loading loop from file `i` on (modelnet40.py:81-90). -/
def loadRows {α : Type*} (P : ℕ) (quick : Bool) : ℕ → List (List α) → Except Err (Table α)
  | _, [] => .ok []
  | i, f :: fs =>
    match assignRow P (f.take P) with
    | .error e => .error e
    | .ok r =>
      if quick && decide (100 < i) then .ok (some r :: fs.map (fun _ => none))
      else match loadRows P quick (i + 1) fs with
        | .error e => .error e
        | .ok rs => .ok (some r :: rs)

/-- State of `train_data.hdf5`: absent, opened for writing but without complete
data, or complete. -/
inductive CacheFile (α : Type*)
  | missing
  | broken
  | data (t : Table α)

/-- Where the process may be killed: before the file is opened for writing, or
between opening and closing it; in the latter case the data may or may not have
reached the disk. -/
inductive CrashPoint
  | loading
  | writing (flushed : Bool)

/-- Result of the data section of a run. -/
inductive RunResult (α : Type*)
  | loaded (t : Table α)
  | raised (e : Err)
  | killed

/-- One run of the data section for one of the two arrays (modelnet40.py:73-94):
read the file if it exists, otherwise load, write and keep the array. Reading a
file without the data set raises `KeyError`. -/
def runData {α : Type*} (c : RunCfg α) (crash : Option CrashPoint) : CacheFile α → RunResult α × CacheFile α
  | .data t => (.loaded (if c.cut then t.map (Option.map (List.take c.perFile)) else t), .data t)
  | .broken => (.raised .keyError, .broken)
  | .missing =>
    match crash with
    | some .loading => (.killed, .missing)
    | _ =>
      match loadRows c.perFile c.quick 0 c.files with
      | .error e => (.raised e, .missing)
      | .ok t =>
        match crash with
        | some (.writing flushed) => (.killed, if flushed then .data t else .broken)
        | _ => (.loaded t, .data t)

/-- State of the file after a history of runs. -/
def afterRuns {α : Type*} (s : CacheFile α) (h : List (RunCfg α × Option CrashPoint)) : CacheFile α :=
  h.foldl (fun s r => (runData r.1 r.2 s).2) s

/-! ### The generator of batches (modelnet40.py:404-461) -/

section
variable {K : Type*} [Field K]

/-- A `modelnet_data_generator`. -/
structure Gen (K : Type*) where
  points : List (List (Fin 3 → K))
  labels : List ℕ
  B : ℕ
  augment : Bool
  order : List ℕ
  index : ℕ

/-- `__len__` (modelnet40.py:422-424). -/
def Gen.len (g : Gen K) : ℕ := g.points.length / g.B

/-- Coordinate-wise scaling (modelnet40.py:450-453) with the uniform numbers
`u ∈ [0, 1)`: factors `u * 0.2 + 0.9`. -/
def scaleBy (u : Fin 3 → K) (p : Fin 3 → K) : Fin 3 → K := fun d => p d * (u d * (2 / 10) + 9 / 10)

/-- A batch: per row the sampled points and the label; `features` are all ones of
shape `[B, V, 1]`. -/
structure GenBatch (K : Type*) where
  rows : List (List (Fin 3 → K) × ℕ)
  features : List (List (List K))

/-- The loop over the rows of a batch (modelnet40.py:444-453). -/
def Gen.rows (g : Gen K) (V : ℕ) (ids : List ℕ) (rnd : ℕ → Fin 3 → K) :
    ℕ → ℕ → Except Err (List (List (Fin 3 → K) × ℕ))
  | _, 0 => .ok []
  | b, m + 1 =>
    match ids[b]? with
    | none => .error .indexError
    | some j =>
      match g.points[j]? with
      | none => .error .indexError
      | some pts =>
        match assignRow V (pts.take V) with
        | .error e => .error e
        | .ok row =>
          match g.labels[j]? with
          | none => .error .indexError
          | some lab =>
            match Gen.rows g V ids rnd (b + 1) m with
            | .error e => .error e
            | .ok rest => .ok ((if g.augment then row.map (scaleBy (rnd b)) else row, lab) :: rest)

/-- `__getitem__(index)` (modelnet40.py:433-455), `V = samples_per_model`; `rnd b`
are the random numbers drawn for row `b`. -/
def Gen.getItem (g : Gen K) (V i : ℕ) (rnd : ℕ → Fin 3 → K) : Except Err (GenBatch K) :=
  match g.rows V ((g.order.drop (i * g.B)).take ((i + 1) * g.B - i * g.B)) rnd 0 g.B with
  | .error e => .error e
  | .ok rows => .ok ⟨rows, List.replicate g.B (List.replicate V [1])⟩

/-- `__call__` (modelnet40.py:426-431): the index is increased only if no
exception was raised. -/
def Gen.call (g : Gen K) (V : ℕ) (rnd : ℕ → Fin 3 → K) : Except Err (GenBatch K) × Gen K :=
  match g.getItem V g.index rnd with
  | .error e => (.error e, g)
  | .ok b => (.ok b, { g with index := g.index + 1 })

/-- `on_epoch_end` (modelnet40.py:457-461) with the permutation that
`np.random.permutation` returns. -/
def Gen.onEpochEnd (g : Gen K) (perm : List ℕ) : Gen K := { g with order := perm, index := 0 }

/-- `__init__` (modelnet40.py:407-420). -/
def Gen.new (points : List (List (Fin 3 → K))) (labels : List ℕ) (B : ℕ) (augment : Bool) (perm : List ℕ) : Gen K :=
  Gen.onEpochEnd ⟨points, labels, B, augment, [], 0⟩ perm

/-- Method calls on a generator. -/
inductive GenCall (K : Type*)
  | call (rnd : ℕ → Fin 3 → K)
  | getItem (i : ℕ) (rnd : ℕ → Fin 3 → K)
  | epochEnd (perm : List ℕ)

/-- State after one method call. -/
def Gen.after (V : ℕ) (g : Gen K) : GenCall K → Gen K
  | .call rnd => (g.call V rnd).2
  | .getItem _ _ => g
  | .epochEnd perm => g.onEpochEnd perm

/-- `for points, features, labels in gen` (modelnet40.py:511, 535): iteration of a
`keras.utils.Sequence` yields the items `0 .. len-1`; it does not call
`on_epoch_end`.  `rnd i` are the random numbers of item `i`. -/
def Gen.pass (g : Gen K) (V : ℕ) (rnd : ℕ → ℕ → Fin 3 → K) : Except Err (List (GenBatch K)) :=
  collect ((List.range g.len).map (fun i => g.getItem V i (rnd i)))

/-- The batches the training loop feeds to the model in `E` epochs
(modelnet40.py:499-511): a pass over the same generator per epoch. -/
def Gen.train (g : Gen K) (V E : ℕ) (rnd : ℕ → ℕ → ℕ → Fin 3 → K) : Except Err (List (List (GenBatch K))) :=
  collect ((List.range E).map (fun e => g.pass V (rnd e)))

/-- `ExponentialDecay(..., staircase=True)` (modelnet40.py:478-482) at a step of
the optimiser, for a generator of `len` batches. -/
def learningRate (init rate : K) (len step : ℕ) : K := init * rate ^ (step / (20 * len))

end
end PC
