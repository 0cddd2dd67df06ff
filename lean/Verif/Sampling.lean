import Verif.Neighbors

/-!
# Sampling (`pylib/pc/sampling.py`, `pylib/pc/custom_ops/custom_ops_tf.py:262-322`)
-/

set_option linter.unusedVariables false

namespace PC

section
variable {K : Type*} [Field K] [LinearOrder K] [FloorRing K] {k : ℕ}

/-! ### Poisson disk sampling -/

/-- `neighbors[nb_ranges[c]:nb_ranges[c+1], 0]` with `nb_ranges = [0] ++ ends`
(custom_ops_tf.py:284, 299-300). -/
def Nbh.slice (h : Nbh k K) (c : ℕ) : List (Fin h.g.c.n) :=
  let r := 0 :: h.nb.ranges
  ((h.nb.pairs.drop (r.getD c 0)).take (r.getD (c + 1) 0 - r.getD c 0)).map Prod.fst

/-- State of the sampling loop: the points with finite log probability, and the
indices selected so far, in order. -/
abbrev PState (h : Nbh k K) := Finset (Fin h.g.c.n) × List (Fin h.g.c.n)

/-- Before the loop (custom_ops_tf.py:287-288): all log probabilities are 1. -/
def poissonInit (h : Nbh k K) : PState h := (Finset.univ, [])

/-- One iteration of the loop (custom_ops_tf.py:293-305): any point of finite
log probability may be drawn (`tf.random.categorical` never draws an outcome of
log probability `-inf` while another one is finite); its neighbours get
log probability `-inf`. -/
inductive PoissonStep (h : Nbh k K) : PState h → PState h → Prop
  | step (alive : Finset (Fin h.g.c.n)) (out : List (Fin h.g.c.n)) (c : Fin h.g.c.n)
      (hc : c ∈ alive) :
      PoissonStep h (alive, out) (alive \ (h.slice c.val).toFinset, out ++ [c])

/-- States reachable by any sequence of random choices. -/
def PoissonReach (h : Nbh k K) (s : PState h) : Prop :=
  Relation.ReflTransGen (PoissonStep h) (poissonInit h) s

/-- `out` is a possible result of the loop, which ends when no log probability
is finite (custom_ops_tf.py:293). -/
def PoissonResult (h : Nbh k K) (out : List (Fin h.g.c.n)) : Prop :=
  PoissonReach h (∅, out)

/-- The cloud and the original indices that `sample(neighborhood, 'poisson')`
returns for the selected sorted indices `out`
(sampling.py:141-150, custom_ops_tf.py:306-307). -/
def poissonSample (h : Nbh k K) (out : List (Fin h.g.c.n)) :
    Cloud (Fin (k + 2) → K) × List (Fin h.g.c.n) :=
  (⟨out.length, fun i => h.g.sortedPts (out.get i), fun i => h.g.sortedBatch (out.get i),
    h.sample.B⟩, out.map h.g.perm)

/-! ### Cell average sampling -/

/-- `new_keys` (custom_ops_tf.py:313-315): numbers `0..U-1` for the `U` different
keys, repeated by their counts. -/
def newKeys (keys : List ℕ) : List ℕ := repeatRange ((uniqueWithCounts keys).map (·.2))

/-- The list of sorted keys of a grid. -/
def Grid.keyList {D : ℕ} (g : Grid D K) : List ℕ := List.ofFn g.sortedKey

/-- The segment of sorted point `q`. -/
def Grid.segment {D : ℕ} (g : Grid D K) (q : Fin g.c.n) : ℕ := (newKeys g.keyList).getD q.val 0

/-- Cell average sampling (custom_ops_tf.py:309-322): one sample per different
key: the mean of the segment, and the batch id of the first point of the
segment. (`tf.math.segment_mean`, `segment_min`.)  The batch size is that of
the neighbourhood's sample cloud (sampling.py:147-149). -/
def cellAverage {D : ℕ} (g : Grid D K) (B : ℕ) : Cloud (Fin D → K) where
  n := (uniqueWithCounts g.keyList).length
  pts s := fun d => segMean (fun q => g.sortedPts q d) g.segment s.val
  batch s := match segMin (fun q : Fin g.c.n => q.val) g.segment s.val with
    | some q => if hq : q < g.c.n then g.sortedBatch ⟨q, hq⟩ else 0
    | none => 0
  B := B

/-! ### Front ends -/

/-- `sample_modes` (sampling.py:23-28). -/
def sampleModes (s : String) : Option ℕ :=
  match s with
  | "average" => some 1
  | "cell average" => some 1
  | "cell_average" => some 1
  | "poisson" => some 0
  | "poisson disk" => some 0
  | "poisson_disk" => some 0
  | _ => none

/-- Results the op `sampling(neighborhood, mode)` may return
(custom_ops_tf.py:262-322): the sampled cloud and the sorted indices. -/
inductive SamplingResult (h : Nbh k K) : ℕ → Cloud (Fin (k + 2) → K) → Prop
  | poisson (out) : PoissonResult h out → SamplingResult h 0 (poissonSample h out).1
  | average : SamplingResult h 1 (cellAverage h.g h.sample.B)

/-- `sample(neighborhood, sample_mode)` (sampling.py:123-150), the cloud.
`none`: `KeyError`. `lower` is `str.lower`. -/
def SampleResult (h : Nbh k K) (lower : String → String) (mode : String)
    (res : Except Err (Cloud (Fin (k + 2) → K))) : Prop :=
  match sampleModes (lower mode) with
  | none => res = .error .keyError
  | some m => ∃ c, SamplingResult h m c ∧ res = .ok c

/-- `poisson_disk_sampling(point_cloud, neighborhood=h)` (sampling.py:64-78):
calls `sampling(neighborhood, 1)`. -/
def PoissonDiskSampling (h : Nbh k K) (c : Cloud (Fin (k + 2) → K)) : Prop :=
  SamplingResult h 1 c

/-- `cell_average_sampling(point_cloud, cell_sizes)` (sampling.py:108-120) after
the neighbourhood `h` has been built: calls `sampling(neighborhood, 0)`. -/
def CellAverageSampling (h : Nbh k K) (c : Cloud (Fin (k + 2) → K)) : Prop :=
  SamplingResult h 0 c

end

/-! ### Broadcasting of scalar arguments -/

/-- A numeric argument: its shape and its entries, in order. -/
structure Arg (K : Type*) where
  shape : List ℕ
  vals : List K

/-- `cast_to_num_dims(values, num_dims)` (utils.py:97-114) for an argument of
rank at most 1: `tf.repeat(values, num_dims)` of a scalar or one-element
vector. -/
def castToNumDims {K : Type*} (a : Arg K) (numDims : ℕ) : List K :=
  if a.shape = [] ∨ a.shape.head? = some 1 then a.vals.flatMap (List.replicate numDims)
  else a.vals

/-- `cast_to_num_dims(radius, point_cloud)` as written in sampling.py:61, 107:
the cloud is passed where a number is expected; `tf.repeat(values,
point_cloud)` raises (it cannot be converted to a tensor), other shapes pass
through. -/
def castToPointCloud {K : Type*} (a : Arg K) : Except Err (List K) :=
  if a.shape = [] ∨ a.shape.head? = some 1 then .error .valueError
  else .ok a.vals

end PC
