import Verif.SchedMem
import Mathlib.Algebra.BigOperators.Intervals
import Mathlib.Algebra.Order.Ring.Int

/-!
# CUDA parallel scan

`custom_ops/tfg_custom_ops/find_neighbors/cc/kernels/scan_alg_kernels.cu.cc`
(in the following: scan_alg).

`L` is the logarithm of `NUM_THREADS` (256, so `L = 8`); a block scans
`2 ^ (L + 1)` elements.  Integers are unbounded.  Every thread executes single
assignments, an expression with two memory reads is split into a read into a
register and an assignment.
-/

set_option linter.unusedVariables false

namespace PC

/-- Addresses: shared memory of a block (`temp`; the variable `blockOffset` of the
second kernel is entry 0), the array, the block counters, registers. -/
inductive ScanAddr
  | sh (b i : ℕ)
  | el (i : ℕ)
  | cn (i : ℕ)
  | reg (b t : ℕ)
  deriving DecidableEq

abbrev ScanMem (M : Type*) := ScanAddr → M
abbrev ScanAct (M : Type*) := ScanMem M → ScanMem M

variable {M : Type*} [CommRing M]

open ScanAddr

/-- `NUM_THREADS` (scan_alg:26) is `2 ^ 8`. -/
def scanLog : ℕ := 8

/-- Elements per block, `NUM_THREADS*2`. -/
def chunkLen (L : ℕ) : ℕ := 2 ^ (L + 1)

/-- `ai` (scan_alg:81 and 103) with `offset = 2 ^ j`. -/
def scanA (j t : ℕ) : ℕ := 2 ^ j * (2 * t + 1) - 1

/-- `bi` (scan_alg:82 and 104). -/
def scanB (j t : ℕ) : ℕ := 2 ^ j * (2 * t + 2) - 1

/-- Loading of global memory (scan_alg:62-72), thread `t`; chunk `c` consists of
the elements from `c * chunkLen`; `curElemIndex = c * NUM_THREADS + t`. -/
def scanLoad (L N b c t : ℕ) : List (ScanAct M) :=
  let cur := c * 2 ^ L + t
  [assign (sh b (2 * t)) (fun m => if cur * 2 < N then m (el (2 * cur)) else 0),
   assign (sh b (2 * t + 1)) (fun m => if cur * 2 + 1 < N then m (el (2 * cur + 1)) else 0)]

/-- One iteration of the loop up the tree (scan_alg:75-87): iteration `j` has
`offset = 2 ^ j` and `d = 2 ^ (L - j)`. -/
def scanUp (L b j t : ℕ) : List (ScanAct M) :=
  if t < 2 ^ (L - j) then
    [assign (reg b t) (fun m => m (sh b (scanA j t))),
     assign (sh b (scanB j t)) (fun m => m (sh b (scanB j t)) + m (reg b t))]
  else []

/-- Clearing of the last element (scan_alg:90-92). -/
def scanClear (L b t : ℕ) : List (ScanAct M) :=
  if t = 0 then [assign (sh b (chunkLen L - 1)) (fun _ => 0)] else []

/-- One iteration of the loop down the tree (scan_alg:95-109) with
`offset = 2 ^ j`, `d = 2 ^ (L - j)`. -/
def scanDown (L b j t : ℕ) : List (ScanAct M) :=
  if t < 2 ^ (L - j) then
    [assign (reg b t) (fun m => m (sh b (scanA j t))),
     assign (sh b (scanA j t)) (fun m => m (sh b (scanB j t))),
     assign (sh b (scanB j t)) (fun m => m (sh b (scanB j t)) + m (reg b t))]
  else []

/-- The block counter (scan_alg:114-118). -/
def scanCount (L N b c t : ℕ) : List (ScanAct M) :=
  if t = 0 then
    let cur := c * 2 ^ L
    let e := min (chunkLen L - 1) (N - cur * 2 - 1)
    [assign (reg b t) (fun m => m (sh b e)),
     assign (cn c) (fun m => m (reg b t) + m (el (2 * cur + e)))]
  else []

/-- Writing the results (scan_alg:123-126). -/
def scanWrite (L N b c t : ℕ) : List (ScanAct M) :=
  let cur := c * 2 ^ L + t
  (if cur * 2 < N then [assign (el (2 * cur)) (fun m => m (sh b (2 * t)))] else []) ++
  (if cur * 2 + 1 < N then [assign (el (2 * cur + 1)) (fun m => m (sh b (2 * t + 1)))] else [])

/-- The threads of a block, all executing `prog`. -/
def allThreads (n : ℕ) (prog : ℕ → List (ScanAct M)) : List (List (ScanAct M)) := (List.range n).map prog

/-- The phases between the barriers of one iteration of the outer loop
(scan_alg:59-128).  There is no barrier between the last iteration up the tree
and the clearing. -/
def chunkPhases (L N b c : ℕ) : List (List (List (ScanAct M))) :=
  [allThreads (2 ^ L) (scanLoad L N b c)] ++
  (List.range L).map (fun j => allThreads (2 ^ L) (scanUp L b j)) ++
  [allThreads (2 ^ L) (fun t => scanUp L b L t ++ scanClear L b t)] ++
  (List.range (L + 1)).map (fun k => allThreads (2 ^ L) (scanDown L b (L - k))) ++
  [allThreads (2 ^ L) (scanCount L N b c)] ++
  [allThreads (2 ^ L) (scanWrite L N b c)]

/-- The phases of block `b` of `TB` blocks: the outer loop (scan_alg:55-57) takes
the chunks `b, b + TB, …` below `pNumProcBlocks = EB` (see `strideLoop_block`). -/
def blockPhases (L N EB TB b : ℕ) : List (List (List (ScanAct M))) :=
  (strideLoop TB EB b).flatMap (chunkPhases L N b)

/-- A launch of `scan_alg_gpu_kernel`: the blocks interleave arbitrarily, the
threads of a block interleave within its phases. -/
def ScanKernel (L N EB TB : ℕ) (m m' : (ScanMem M)) : Prop :=
  ∃ (bts : List (List (ScanAct M))) (tr : List (ScanAct M)), bts.length = TB ∧
    (∀ b p, bts[b]? = some p → Phased (blockPhases L N EB TB b) p) ∧
    Interleave bts tr ∧ m' = runActs m tr

/-- The value of `curElemIndex` for thread `t` in iteration `k` of
`propagate_down_counters_gpu_kernel` (scan_alg:155-157); `P` is the block size
of this launch, `TB` the number of blocks. -/
def propCur (L P TB b t k : ℕ) : ℕ := b * P + t + chunkLen L + k * (TB * P)

/-- The actions of thread `t` between barrier `k` and barrier `k + 1`: the update
of iteration `k - 1` (scan_alg:167), then, for thread 0, the write of
`blockOffset` of iteration `k` (scan_alg:160-162).  Threads that have left the
loop no longer take part in the barriers. -/
def propPhase (L N P TB b k t : ℕ) : List (ScanAct M) :=
  (if 1 ≤ k ∧ propCur L P TB b t (k - 1) < N then
    [assign (reg b t) (fun m => m (sh b 0)),
     assign (el (propCur L P TB b t (k - 1)))
       (fun m => m (el (propCur L P TB b t (k - 1))) + m (reg b t))] else []) ++
  (if t = 0 ∧ propCur L P TB b 0 k < N then
    [assign (sh b 0) (fun m => m (cn (propCur L P TB b 0 k / chunkLen L)))] else [])

/-- The phases of a block; `iters` is any bound on the number of its iterations
(further phases are empty). -/
def propPhases (L N P TB b iters : ℕ) : List (List (List (ScanAct M))) :=
  (List.range (iters + 1)).map (fun k => allThreads P (propPhase L N P TB b k))

/-- A launch of `propagate_down_counters_gpu_kernel`. -/
def PropKernel (L N P TB : ℕ) (m m' : (ScanMem M)) : Prop :=
  ∃ (bts : List (List (ScanAct M))) (tr : List (ScanAct M)), bts.length = TB ∧
    (∀ b p, bts[b]? = some p → Phased (propPhases L N P TB b N) p) ∧
    Interleave bts tr ∧ m' = runActs m tr

/-! ### host code -/

/-- `execBlocks` (scan_alg:202-203 and 238-239). -/
def execBlocks (n len : ℕ) : ℕ := n / len + (if n % len ≠ 0 then 1 else 0)

/-- Number of blocks of a launch (scan_alg:204-205 and 240-241); `W` is
`numMP*numBlocks`. -/
def launchBlocks (W eb : ℕ) : ℕ := if W > eb then eb else W

/-- One pass of the first host loop (scan_alg:199-229) on an array `v` of `N`
elements: the array and the counters afterwards.  The counters are zero
before; shared memory and registers hold arbitrary values. -/
def KernelPass (L W N : ℕ) (v v' c : ℕ → M) : Prop :=
  ∃ m m' : (ScanMem M), (∀ i, m (el i) = v i) ∧ (∀ i, m (cn i) = 0) ∧
    ScanKernel L N (execBlocks N (chunkLen L)) (launchBlocks W (execBlocks N (chunkLen L))) m m' ∧
    (∀ i, v' i = m' (el i)) ∧ (∀ i, c i = m' (cn i))

/-- The vector `counters` after the first host loop (scan_alg:193-229): a
pass is executed, then further ones while more than one counter is left. -/
inductive ScanLevels (L W : ℕ) : ℕ → (ℕ → M) → List (ℕ × (ℕ → M)) → Prop
  | last {N : ℕ} {v v' c : ℕ → M} (h : KernelPass L W N v v' c)
      (he : ¬ execBlocks N (chunkLen L) > 1) :
      ScanLevels L W N v [(N, v'), (execBlocks N (chunkLen L), c)]
  | step {N : ℕ} {v v' c : ℕ → M} {rest : List (ℕ × (ℕ → M))} (h : KernelPass L W N v v' c)
      (he : execBlocks N (chunkLen L) > 1) (next : ScanLevels L W (execBlocks N (chunkLen L)) c rest) :
      ScanLevels L W N v ((N, v') :: rest)

/-- One pass of the second host loop (scan_alg:233-250): counters `c`, array `v`
of size `N`; `P` is `warpSize*2`. -/
def PropPass (L W P N : ℕ) (c v v' : ℕ → M) : Prop :=
  if 0 < N - chunkLen L then
    ∃ m m' : (ScanMem M), (∀ i, m (el i) = v i) ∧ (∀ i, m (cn i) = c i) ∧
      PropKernel L N P (launchBlocks W (execBlocks (N - chunkLen L) P)) m m' ∧
      (∀ i, v' i = m' (el i))
  else v' = v

/-- The second host loop (scan_alg:233-250) from the last level to the first. -/
inductive ScanPropagate (L W P : ℕ) : List (ℕ × (ℕ → M)) → List (ℕ × (ℕ → M)) → Prop
  | single (x : ℕ × (ℕ → M)) : ScanPropagate L W P [x] [x]
  | cons {N N1 : ℕ} {v v' c : ℕ → M} {rest rest' : List (ℕ × (ℕ → M))}
      (h : ScanPropagate L W P rest ((N1, c) :: rest')) (hp : PropPass L W P N c v v') :
      ScanPropagate L W P ((N, v) :: rest) ((N, v') :: (N1, c) :: rest')

/-- A run of `scan_alg` (scan_alg:173-266) on the array `v` of `N` elements, with
resulting array `out` and returned value `total`. -/
def ScanRun (L W P N : ℕ) (v out : ℕ → M) (total : M) : Prop :=
  ∃ (lv lv' : List (ℕ × (ℕ → M))) (c : ℕ → M) (k : ℕ), ScanLevels L W N v lv ∧ ScanPropagate L W P lv lv' ∧
    lv'.head? = some (N, out) ∧ lv'.getLast? = some (k, c) ∧ total = c 0

end PC
