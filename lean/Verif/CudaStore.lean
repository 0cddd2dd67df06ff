import Verif.CudaScan
import Verif.CudaSearch
import Mathlib.Algebra.BigOperators.Fin

/-!
# CUDA neighbour search: counting and storing

`custom_ops/tfg_custom_ops/find_neighbors/cc/kernels/count_neighbors_kernels.cu.cc` (count),
`store_neighbors_kernels.cu.cc` (store), `elem_wise_min_kernels.cu.cc`,
`find_neighbors/cc/ops/find_neighbors_ops.cpp` (ops), `shared/cc/kernels/rnd_utils.h`.

The range array of a pass is `rg : ℕ → ℕ × ℕ` (row `s * R + r`: range `r` of
sample `s`), `hit s p` is the distance test between sample `s` and point
position `p` (`cuTest`).  The product `pNumSamples*pNumRanges*16` is not
reduced modulo `2^32`.
-/

set_option linter.unusedVariables false

namespace PC

/-! ### the iteration space shared by the kernels -/

/-- `NUM_THREADS_X_RANGE` (count:26, store:28). -/
def threadsPerRange : ℕ := 16

/-- Number of iterations (count:60, store:73 and 143). -/
def findIters (S R : ℕ) : ℕ := S * R * threadsPerRange

/-- `sampleIndex` (count:63, store:77 and 147). -/
def iterSample (R i : ℕ) : ℕ := i / (R * threadsPerRange)

/-- The point positions of iteration `i` that pass the test, in loop order
(count:72-85, store:80-92 and 150-162). -/
def iterFinds (R : ℕ) (rg : ℕ → ℕ × ℕ) (hit : ℕ → ℕ → Bool) (i : ℕ) : List ℕ :=
  (strideLoop threadsPerRange (rg (i / threadsPerRange)).2
    ((rg (i / threadsPerRange)).1 + i % threadsPerRange)).filter (hit (iterSample R i))

/-! ### `count_neighbors_gpu_kernel` -/

/-- The actions of a thread of a block, `t` its `threadIdx.x`, `i` its `curIter`. -/
inductive CountAct where
  /-- `localCounter[threadIdx.x] = sampleIndex` (count:66). -/
  | setSample (t i : ℕ)
  /-- `localCounter[blockDim.x + threadIdx.x] = 0` (count:67). -/
  | setZero (t i : ℕ)
  /-- `atomicAdd(&localCounter[blockDim.x+offsetCounter], 1)` (count:87). -/
  | hit (t i : ℕ)
  /-- The update of the global counters (count:94-98). -/
  | flush (t i : ℕ)
  deriving DecidableEq

/-- Effect of an action on the shared array `localCounter`, and the atomic
additions `(address, value)` to `pOutNumNeighs` it performs.  The register
`offsetCounter` (count:73) is recomputed at every use: `localCounter[0]` changes
only between the last barrier of one iteration and the first of the next. -/
def CountAct.run (R B : ℕ) (sh : ℕ → ℕ) : CountAct → (ℕ → ℕ) × List (ℕ × ℕ)
  | .setSample t i => (Function.update sh t (iterSample R i), [])
  | .setZero t i => (Function.update sh (B + t) 0, [])
  | .hit t i =>
    let a := B + (iterSample R i - sh 0)
    (Function.update sh a (sh a + 1), [])
  | .flush t i =>
    (sh, if t = 0 then [(iterSample R i, sh B)]
      else if iterSample R i ≠ sh (t - 1) then [(iterSample R i, sh (B + (iterSample R i - sh 0)))]
      else [])

/-- A trace of actions of one block: final shared memory and all additions to
global memory.  The kernel never reads global counters. -/
def countRun (R B : ℕ) : (ℕ → ℕ) → List CountAct → (ℕ → ℕ) × List (ℕ × ℕ)
  | sh, [] => (sh, [])
  | sh, a :: tr =>
    let r := a.run R B sh
    let q := countRun R B r.1 tr
    (q.1, r.2 ++ q.2)

/-- The three phases between the barriers of an iteration of a block; thread `t`
has `curIter = c * B + t` (count:59-101).  `M` is the number of iterations.
Threads with `curIter ≥ M` have left the loop. -/
def countPhases (R B M : ℕ) (rg : ℕ → ℕ × ℕ) (hit : ℕ → ℕ → Bool) (c : ℕ) :
    List (List (List CountAct)) :=
  [(List.range B).map (fun t => if c * B + t < M then
      [.setSample t (c * B + t), .setZero t (c * B + t)] else []),
   (List.range B).map (fun t => if c * B + t < M then
      (iterFinds R rg hit (c * B + t)).map (fun _ => .hit t (c * B + t)) else []),
   (List.range B).map (fun t => if c * B + t < M then [.flush t (c * B + t)] else [])]

/-- The phases of block `b` of `TB` blocks: its threads start at `b * B + t` and
advance by `TB * B`, so the chunks are `b, b + TB, …`. -/
def countBlock (R B M TB : ℕ) (rg : ℕ → ℕ × ℕ) (hit : ℕ → ℕ → Bool) (b : ℕ) :
    List (List (List CountAct)) :=
  (strideLoop TB (execBlocks M B) b).flatMap (countPhases R B M rg hit)

/-- Atomic additions. -/
def runAdds (m : ℕ → ℕ) (tr : List (ℕ × ℕ)) : ℕ → ℕ :=
  tr.foldl (fun m w => Function.update m w.1 (m w.1 + w.2)) m

/-- A launch of `count_neighbors_gpu_kernel` by `count_neighbors` (count:106-148)
with loop bound `M`, `W = numMP*numBlocks` and block size `B`: counters before and
after.  Every block executes its phases in some schedule, starting from arbitrary
shared memory; the additions of the blocks to global memory interleave. -/
def CountLaunch (M R B W : ℕ) (rg : ℕ → ℕ × ℕ) (hit : ℕ → ℕ → Bool) (cnt cnt' : ℕ → ℕ) : Prop :=
  ∃ (adds : List (List (ℕ × ℕ))) (tr : List (ℕ × ℕ)),
    adds.length = launchBlocks W (execBlocks M B) ∧
    (∀ b l, adds[b]? = some l → ∃ (sh : ℕ → ℕ) (btr : List CountAct),
      Phased (countBlock R B M (launchBlocks W (execBlocks M B)) rg hit b) btr ∧
        l = (countRun R B sh btr).2) ∧
    Interleave adds tr ∧ cnt' = runAdds cnt tr

/-- The launch with the loop bound of `S` samples and `R` ranges. -/
def CountKernel (S R B W : ℕ) (rg : ℕ → ℕ × ℕ) (hit : ℕ → ℕ → Bool) (cnt cnt' : ℕ → ℕ) : Prop :=
  CountLaunch (findIters S R) R B W rg hit cnt cnt'

/-- The counting passes (ops:191-212). -/
inductive CountPasses (S R B W : ℕ) (hit : ℕ → ℕ → Bool) :
    List (ℕ → ℕ × ℕ) → (ℕ → ℕ) → (ℕ → ℕ) → Prop
  | nil (cnt : ℕ → ℕ) : CountPasses S R B W hit [] cnt cnt
  | cons {rg : ℕ → ℕ × ℕ} {rest : List (ℕ → ℕ × ℕ)} {cnt cnt1 cnt2 : ℕ → ℕ}
      (h : CountKernel S R B W rg hit cnt cnt1) (next : CountPasses S R B W hit rest cnt1 cnt2) :
      CountPasses S R B W hit (rg :: rest) cnt cnt2

/-! ### `store_neighbors_gpu_kernel` (no limit) -/

/-- Global memory: the counters `pOutNumNeighs` and the writes performed so far on
`pOutNeighs`, oldest first. -/
structure StoreMem where
  cnt : ℕ → ℕ
  writes : List (ℕ × (ℕ × ℕ))

/-- A thread: pairs (point, sample) still to be stored, in program order, and the
write it has to perform next (`neighIndex` and the pair). -/
structure StoreThread where
  todo : List (ℕ × ℕ)
  pend : Option (ℕ × (ℕ × ℕ))

/-- One step of a thread: the atomic addition (store:164) or the write
(store:165). -/
def storeStep (m : StoreMem) (l : StoreThread) : Option (StoreMem × StoreThread) :=
  match l.pend, l.todo with
  | some w, todo => some (⟨m.cnt, m.writes ++ [w]⟩, ⟨todo, none⟩)
  | none, x :: todo =>
    some (⟨Function.update m.cnt x.2 (m.cnt x.2 + 1), m.writes⟩, ⟨todo, some (m.cnt x.2, x)⟩)
  | none, [] => none

/-- The pairs `make_int2(curPtIter, sampleIndex)` of iteration `i`. -/
def iterPairs (R : ℕ) (rg : ℕ → ℕ × ℕ) (hit : ℕ → ℕ → Bool) (i : ℕ) : List (ℕ × ℕ) :=
  (iterFinds R rg hit i).map (fun p => (p, iterSample R i))

/-- The pairs thread `t` of `T` stores in program order (store:142-168). -/
def storeProg (S R T : ℕ) (rg : ℕ → ℕ × ℕ) (hit : ℕ → ℕ → Bool) (t : ℕ) : List (ℕ × ℕ) :=
  (strideLoop T (findIters S R) t).flatMap (iterPairs R rg hit)

/-- A launch of `store_neighbors_gpu_kernel` with `T` threads in any schedule. -/
def StoreKernel (S R T : ℕ) (rg : ℕ → ℕ × ℕ) (hit : ℕ → ℕ → Bool) (m m' : StoreMem) : Prop :=
  ∃ ls : Fin T → StoreThread,
    Steps storeStep (m, fun t => ⟨storeProg S R T rg hit t, none⟩) (m', ls) ∧
    Halted storeStep (m', ls)

/-- The storing passes (ops:228-249), `T` threads each. -/
inductive StorePasses (S R T : ℕ) (hit : ℕ → ℕ → Bool) :
    List (ℕ → ℕ × ℕ) → StoreMem → StoreMem → Prop
  | nil (m : StoreMem) : StorePasses S R T hit [] m m
  | cons {rg : ℕ → ℕ × ℕ} {rest : List (ℕ → ℕ × ℕ)} {m m1 m2 : StoreMem}
      (h : StoreKernel S R T rg hit m m1) (next : StorePasses S R T hit rest m1 m2) :
      StorePasses S R T hit (rg :: rest) m m2

/-- Number of threads of a storing launch (store:209-215, 238-244). -/
def storeThreads (S R B W : ℕ) : ℕ := launchBlocks W (execBlocks (findIters S R) B) * B

/-- A run of `FindNeighborsOp::Compute` (ops:157-250) with `max_neighbors = 0`
after the ranges `rgs` of the passes: counting, scan, storing.  `Wc`, `Ws`, `Wn`
are the values `numMP*numBlocks` of the three kinds of launches; the block size
is 64 (`warpSize*2`).  The results: the counters, the total and the writes to the
output tensor (which holds zeros before, ops:225). -/
def FindRun (S R Wc Ws Wn : ℕ) (rgs : List (ℕ → ℕ × ℕ)) (hit : ℕ → ℕ → Bool) (total : ℕ)
    (res : StoreMem) : Prop :=
  ∃ (cnt start : ℕ → ℕ) (out : ℕ → ℤ), CountPasses S R 64 Wc hit rgs (fun _ => 0) cnt ∧
    ScanRun scanLog Ws 64 S (fun i => (cnt i : ℤ)) out (total : ℤ) ∧
    (∀ s < S, (start s : ℤ) = out s) ∧
    StorePasses S R (storeThreads S R 64 Wn) hit rgs ⟨start, []⟩ res

/-- The range array of a pass with the offsets `offs` (find_ranges:67-73 and 165,
232: iteration `i` handles sample `i / 9` and offset `i % 9` and writes entry `i`
only).  `cen s` is the batch id and the position of sample `s`.  The value `(0, 0)`
for a loop that does not stop never occurs (`cuRange_spec`). -/
def opRanges {K : Type*} [Field K] [LinearOrder K] [FloorRing K] {D : ℕ} (fuel : ℕ) (g : Grid D K)
    (tab : ℤ → ℕ × ℕ) (cen : ℕ → ℕ × (Fin D → K)) (offs : List (Fin D → ℤ)) (i : ℕ) : ℕ × ℕ :=
  (cuRange fuel (cuNc g) (cuSortedKeys g) tab 1
    (cuGridKey g (cen (i / offsetsPerBlock)).1 (cen (i / offsetsPerBlock)).2)
    (offs.getD (i % offsetsPerBlock) 0)).getD (0, 0)

/-- The test between sample `s` and point position `i`. -/
def opHit {K : Type*} [Field K] [LinearOrder K] [FloorRing K] {D : ℕ} (g : Grid D K)
    (cen : ℕ → ℕ × (Fin D → K)) (inv : Fin D → K) (s i : ℕ) : Bool :=
  if h : i < g.c.n then decide (cuTest (cen s).2 (g.c.pts (cuPerm g ⟨i, h⟩)) inv) else false

/-- The output tensor. -/
def StoreMem.out (m : StoreMem) : ℕ → ℕ × ℕ := runWrites (fun _ => (0, 0)) m.writes

end PC
