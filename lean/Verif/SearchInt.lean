import Verif.CudaStore
import Verif.OpChecks

/-!
# CUDA neighbour search: loop bounds in 32 bits

`CudaStore.lean` takes the product `pNumSamples*pNumRanges*NUM_THREADS_X_RANGE`
as a natural number.  In the code it has type `unsigned int`
(count_neighbors_kernels.cu.cc (count), store_neighbors_kernels.cu.cc (store),
find_ranges_grid_ds_kernels.cu.cc (ranges), find_neighbors_ops.cpp (ops)).
Here the loops, the numbers of blocks and the sizes of the buffers are computed
modulo `2^32`.  The loop variables of count and store are `long long` and do not
wrap; the loop variable of ranges is an `int`, its values are below the bound.
-/

set_option linter.unusedVariables false

namespace PC

/-- Conversion to `unsigned int`. -/
def u32 (x : ℕ) : ℕ := x % 2 ^ 32

/-- `pNumSamples*pNumOffsets` (ranges:67 and 201, 271-272). -/
def rangeIters32 (S R : ℕ) : ℕ := u32 (S * R)

/-- `pNumSamples*pNumRanges*NUM_THREADS_X_RANGE` (count:60 and 133-134, store:73,
143, 209-210, 238-239). -/
def findIters32 (S R : ℕ) : ℕ := u32 (u32 (S * R) * threadsPerRange)

/-- Number of entries of the buffer of the ranges (ops:167-168). -/
def rangeBuffer32 (S R : ℕ) : ℕ := u32 (u32 (S * R) * 2)

/-- `count_neighbors` (count:106-148). -/
def CountKernel32 (S R B W : ℕ) (rg : ℕ → ℕ × ℕ) (hit : ℕ → ℕ → Bool) (cnt cnt' : ℕ → ℕ) : Prop :=
  CountLaunch (findIters32 S R) R B W rg hit cnt cnt'

/-- The counting passes (ops:191-212). -/
inductive CountPasses32 (S R B W : ℕ) (hit : ℕ → ℕ → Bool) :
    List (ℕ → ℕ × ℕ) → (ℕ → ℕ) → (ℕ → ℕ) → Prop
  | nil (cnt : ℕ → ℕ) : CountPasses32 S R B W hit [] cnt cnt
  | cons {rg : ℕ → ℕ × ℕ} {rest : List (ℕ → ℕ × ℕ)} {cnt cnt1 cnt2 : ℕ → ℕ}
      (h : CountKernel32 S R B W rg hit cnt cnt1) (next : CountPasses32 S R B W hit rest cnt1 cnt2) :
      CountPasses32 S R B W hit (rg :: rest) cnt cnt2

/-- The pairs thread `t` of `T` stores in program order (store:142-168). -/
def storeProg32 (S R T : ℕ) (rg : ℕ → ℕ × ℕ) (hit : ℕ → ℕ → Bool) (t : ℕ) : List (ℕ × ℕ) :=
  (strideLoop T (findIters32 S R) t).flatMap (iterPairs R rg hit)

/-- A launch of `store_neighbors_gpu_kernel` with `T` threads in any schedule. -/
def StoreKernel32 (S R T : ℕ) (rg : ℕ → ℕ × ℕ) (hit : ℕ → ℕ → Bool) (m m' : StoreMem) : Prop :=
  ∃ ls : Fin T → StoreThread,
    Steps storeStep (m, fun t => ⟨storeProg32 S R T rg hit t, none⟩) (m', ls) ∧
    Halted storeStep (m', ls)

/-- The storing passes (ops:228-249), `T` threads each. -/
inductive StorePasses32 (S R T : ℕ) (hit : ℕ → ℕ → Bool) :
    List (ℕ → ℕ × ℕ) → StoreMem → StoreMem → Prop
  | nil (m : StoreMem) : StorePasses32 S R T hit [] m m
  | cons {rg : ℕ → ℕ × ℕ} {rest : List (ℕ → ℕ × ℕ)} {m m1 m2 : StoreMem}
      (h : StoreKernel32 S R T rg hit m m1) (next : StorePasses32 S R T hit rest m1 m2) :
      StorePasses32 S R T hit (rg :: rest) m m2

/-- Number of threads of a storing launch (store:232-244). -/
def storeThreads32 (S R B W : ℕ) : ℕ := launchBlocks W (execBlocks (findIters32 S R) B) * B

/-- `FindNeighborsOp::Compute` (ops:157-250) as `FindRun`, with the loop bounds of
the machine.  A launch of zero blocks has no effect here; the code ends the process
in this case, see `searchLaunches32`. -/
def FindRun32 (S R Wc Ws Wn : ℕ) (rgs : List (ℕ → ℕ × ℕ)) (hit : ℕ → ℕ → Bool) (total : ℕ)
    (res : StoreMem) : Prop :=
  ∃ (cnt start : ℕ → ℕ) (out : ℕ → ℤ), CountPasses32 S R 64 Wc hit rgs (fun _ => 0) cnt ∧
    ScanRun scanLog Ws 64 S (fun i => (cnt i : ℤ)) out (total : ℤ) ∧
    (∀ s < S, (start s : ℤ) = out s) ∧
    StorePasses32 S R (storeThreads32 S R 64 Wn) hit rgs ⟨start, []⟩ res

/-- `searchLaunches` with the numbers of blocks the machine computes. -/
def searchLaunches32 (bs numSamples : ℕ) (limited : Bool) : List ℕ :=
  [execBlocks numSamples bs, execBlocks (rangeIters32 numSamples 9) bs,
    execBlocks (findIters32 numSamples 9) bs] ++
  (if limited then [execBlocks numSamples bs] else []) ++
  [execBlocks numSamples (bs * 2), execBlocks (findIters32 numSamples 9) bs]

/-- `batchSize_*numCellsCPU(0)*numCellsCPU(1)*2` (build_grid_ds_ops.cpp:104): an
`int` product converted to `unsigned int`. -/
def dsSize32 (B c0 c1 : ℕ) : ℕ := u32 (u32 (u32 (B * c0) * c1) * 2)

/-- `pDevice->memset(pOutGPUPtrDS, 0, sizeof(int)*pDSSize)`
(build_grid_ds_kernels.cu.cc:104): the first `size` integers are set to zero, `mem`
is what the allocator returned. -/
def memset0 (size : ℕ) (mem : ℕ → ℤ) (i : ℕ) : ℤ := if i < size then 0 else mem i

end PC
