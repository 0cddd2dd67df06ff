import Verif.CudaStore

/-!
# CUDA sampling

`sampling/cc/ops/sampling_ops.cpp` (ops) and the kernels
`count_unique_keys_kernels.cu.cc` (cuk), `store_unique_keys_kernels.cu.cc` (suk),
`sampling_avg_kernels.cu.cc` (avg), `count_sampling_pd_kernels.cu.cc` (pd),
`store_sampled_pts_kernels.cu.cc` (ssp).

The input arrays are read only; `keys i` is `pKeys[i]`, `N` is `pNumPts`.  The
block size is 128 (`warpSize*4`); `W` stands for `numMP*numBlocks` of a launch.
-/

set_option linter.unusedVariables false

namespace PC

/-! ### `count_unique_keys_gpu_kernel` -/

/-- Actions on the shared variable `localCounter` of a block. -/
inductive KeyAct where
  /-- `localCounter = 0` (cuk:42-44) -/
  | zero
  /-- `atomicAdd(&localCounter, 1)` (cuk:58) -/
  | inc
  /-- `atomicAdd(pGlobalCounter, localCounter)` (cuk:65-67) -/
  | flush
  deriving DecidableEq

/-- A trace of a block: final value of `localCounter`, and the additions to the
global counter. -/
def keyRun : ℕ → List KeyAct → ℕ × List ℕ
  | v, [] => (v, [])
  | v, .zero :: tr => keyRun 0 tr
  | v, .inc :: tr => keyRun (v + 1) tr
  | v, .flush :: tr => ((keyRun v tr).1, v :: (keyRun v tr).2)

/-- The phases between the barriers of block `b` of `TB` blocks with `B` threads
(cuk:41-67).  The loop bound is `pNumPts-1` (unsigned; `N = 0` would wrap around). -/
def keyPhases (N B TB : ℕ) (keys : ℕ → ℤ) (b : ℕ) : List (List (List KeyAct)) :=
  [(List.range B).map (fun t => if t = 0 then [.zero] else []),
   (List.range B).map (fun t => (strideLoop (TB * B) (N - 1) (b * B + t)).flatMap
     (fun i => if keys i ≠ keys (i + 1) then [.inc] else [])),
   (List.range B).map (fun t => if t = 0 then [.flush] else [])]

/-- A run of `count_unique_keys_gpu` (cuk:72-120) with result `n`. -/
def CountKeys (N B W : ℕ) (keys : ℕ → ℤ) (n : ℕ) : Prop :=
  ∃ (adds : List (List ℕ)) (tr : List ℕ), adds.length = launchBlocks W (execBlocks N B) ∧
    (∀ b l, adds[b]? = some l → ∃ v btr,
      Phased (keyPhases N B (launchBlocks W (execBlocks N B)) keys b) btr ∧ l = (keyRun v btr).2) ∧
    Interleave adds tr ∧ n = tr.sum + 1

/-! ### kernels that append selected indices -/

/-- The indices thread `t` of `T` appends, with the number 0 of the only counter
(suk:43-55, ssp:53-68). -/
def compactProg (sel : ℕ → Bool) (N T t : ℕ) : List (ℕ × ℕ) :=
  ((strideLoop T N t).filter sel).map (fun i => (i, 0))

/-- A launch of `store_unique_keys_gpu_kernel` or `store_sampled_pts_gpu_kernel`:
an atomic addition to the counter, then the write.  The latter writes three
arrays at the same index, each of them once: the model keeps the index array
`pOutIndices`, the two others hold the data of that index. -/
def CompactKernel (sel : ℕ → Bool) (N T : ℕ) (m' : StoreMem) : Prop :=
  ∃ ls : Fin T → StoreThread,
    Steps storeStep (⟨fun _ => 0, []⟩, fun t => ⟨compactProg sel N T t, none⟩) (m', ls) ∧
    Halted storeStep (m', ls)

/-- Number of threads of a launch over `n` items with block size 128. -/
def launchThreads (n W : ℕ) : ℕ := launchBlocks W (execBlocks n 128) * 128

/-- The test of `store_unique_keys_gpu_kernel` (suk:51). -/
def isFirstKey (keys : ℕ → ℤ) (i : ℕ) : Bool := decide (i = 0 ∨ keys i ≠ keys (i - 1))

/-! ### cells -/

/-- The positions visited by `while(iter < pNumPts && pKeys[iter] == curKey)` from
position `i` on (avg:74-79, pd:80-105). -/
def cellRun (N : ℕ) (keys : ℕ → ℤ) (i : ℕ) : List ℕ :=
  (List.range' i (N - i)).takeWhile (fun j => decide (keys j = keys i))

section
variable {K : Type*} [Field K] {D : ℕ}

/-- Iteration `u` of `sampling_avg_gpu_kernel` (avg:61-86): writes the mean and the batch
id to slot `u` of the two outputs (modelled as one write of a pair). -/
def avgBody (N : ℕ) (keys : ℕ → ℤ) (nc : Fin D → ℤ) (pts : ℕ → Fin D → K) (firsts : ℕ → ℕ) (u : ℕ) :
    List (ℕ × ((Fin D → K) × ℤ)) :=
  let run := cellRun N keys (firsts u)
  [(u, (fun d => (run.map (fun j => pts j d)).sum / (run.length : K),
    (keys (firsts u)).tdiv (cuTotal nc)))]

/-- A run of `SamplingOp::Compute` with mode 1 (ops:131-138, 173-194): number of
samples, and the output.  `Wc`, `Ws`, `Wa` belong to the three launches. -/
def AvgRun (N Wc Ws Wa : ℕ) (keys : ℕ → ℤ) (nc : Fin D → ℤ) (pts : ℕ → Fin D → K) (n : ℕ)
    (out : ℕ → (Fin D → K) × ℤ) : Prop :=
  ∃ (m : StoreMem) (tr : List (ℕ × ((Fin D → K) × ℤ))), CountKeys N 128 Wc keys n ∧
    CompactKernel (isFirstKey keys) N (launchThreads N Ws) m ∧
    Interleave (strideThreads (launchThreads n Wa) n
      (avgBody N keys nc pts (fun u => (m.out u).1))) tr ∧
    out = runWrites (fun _ => (fun _ => 0, 0)) tr

end

/-! ### `count_sampled_pd_gpu_kernel` -/

/-- Global memory: `pUsed` and the counter. -/
structure PdMem where
  used : ℕ → Bool
  count : ℕ

/-- What a thread is doing. -/
inductive PdCur where
  | idle
  /-- testing point `i`: neighbours still to read and the variable `valid` -/
  | scan (i : ℕ) (rest : List ℕ) (valid : Bool)
  /-- the counter has been incremented, the mark is still to be written -/
  | mark (i : ℕ)
  deriving DecidableEq

/-- A thread: points still to test, in program order. -/
structure PdThread where
  todo : List ℕ
  cur : PdCur

/-- One step (pd:82-104): one read of `pUsed`, the atomic addition, or the write.
`nb i` are the values `pNeighbors[n].x` in the range of point `i`. -/
def pdStep (nb : ℕ → List ℕ) (m : PdMem) (l : PdThread) : Option (PdMem × PdThread) :=
  match l.cur with
  | .mark i => some (⟨Function.update m.used i true, m.count⟩, ⟨l.todo, .idle⟩)
  | .scan i (n :: rest) v => some (m, ⟨l.todo, .scan i rest (v && !m.used n)⟩)
  | .scan i [] true => some (⟨m.used, m.count + 1⟩, ⟨l.todo, .mark i⟩)
  | .scan i [] false => some (m, ⟨l.todo, .idle⟩)
  | .idle =>
    match l.todo with
    | i :: todo => some (m, ⟨todo, .scan i (nb i) true⟩)
    | [] => none

/-- `validCode` of call `c` (pd:165-170): entry `d`. -/
def pdCode : ℕ → ℕ → ℕ
  | c, 0 => c % 2
  | c, d + 1 => pdCode (c / 2) d

/-- `validCell` (pd:72-75). -/
def pdValid {D : ℕ} (nc : Fin D → ℤ) (c : ℕ) (key : ℤ) : Bool :=
  decide (∀ d : Fin D, ((cuDecode key nc).2 d).tmod 2 = (pdCode c d.val : ℤ))

/-- The points thread `t` tests in call `c`, in program order (pd:56-107). -/
def pdProg {D : ℕ} (N : ℕ) (keys : ℕ → ℤ) (nc : Fin D → ℤ) (c : ℕ) (firsts : ℕ → ℕ) (numKeys T t : ℕ) :
    List ℕ :=
  (strideLoop T numKeys t).flatMap (fun u =>
    if pdValid nc c (keys (firsts u)) then cellRun N keys (firsts u) else [])

/-- Call `c` of the kernel with `T` threads in any schedule. -/
def PdKernel {D : ℕ} (N : ℕ) (keys : ℕ → ℤ) (nc : Fin D → ℤ) (nb : ℕ → List ℕ) (firsts : ℕ → ℕ)
    (numKeys T c : ℕ) (m m' : PdMem) : Prop :=
  ∃ ls : Fin T → PdThread,
    Steps (pdStep nb) (m, fun t => ⟨pdProg N keys nc c firsts numKeys T t, .idle⟩) (m', ls) ∧
    Halted (pdStep nb) (m', ls)

/-- The calls `0, …, c - 1` one after another (pd:156-180). -/
inductive PdCalls {D : ℕ} (N : ℕ) (keys : ℕ → ℤ) (nc : Fin D → ℤ) (nb : ℕ → List ℕ) (firsts : ℕ → ℕ)
    (numKeys T : ℕ) : ℕ → PdMem → Prop
  | zero : PdCalls N keys nc nb firsts numKeys T 0 ⟨fun _ => false, 0⟩
  | succ {c : ℕ} {m m' : PdMem} (h : PdCalls N keys nc nb firsts numKeys T c m)
      (hk : PdKernel N keys nc nb firsts numKeys T c m m') :
      PdCalls N keys nc nb firsts numKeys T (c + 1) m'

/-- A run of `SamplingOp::Compute` with mode 0 (ops:131-171): size of the outputs
(`numSampledPts`) and the contents of `pOutIndices`. -/
def PdRun {D : ℕ} (N Wc Ws Wp Wo : ℕ) (keys : ℕ → ℤ) (nc : Fin D → ℤ) (nb : ℕ → List ℕ) (n : ℕ)
    (out : StoreMem) : Prop :=
  ∃ (numKeys : ℕ) (m : StoreMem) (pm : PdMem), CountKeys N 128 Wc keys numKeys ∧
    CompactKernel (isFirstKey keys) N (launchThreads N Ws) m ∧
    PdCalls N keys nc nb (fun u => (m.out u).1) numKeys (launchThreads numKeys Wp) (2 ^ D) pm ∧
    CompactKernel pm.used N (launchThreads N Wo) out ∧ n = pm.count

/-- The neighbour lists read by the kernel (pd:83-95) from the result of the neighbour
search: `pNeighPtIndices` are the counters, `pNeighbors` the pairs. -/
def nbOf (res : StoreMem) (i : ℕ) : List ℕ :=
  let lo := if i > 0 then res.cnt (i - 1) else 0
  (List.range' lo (res.cnt i - lo)).map (fun j => (res.out j).1)

end PC
