import Verif.SearchInt
import Mathlib.Data.ZMod.Basic

/-!
# CUDA neighbour search: pairs counted in 32 bits

`CudaStore.lean` and `SearchInt.lean` take the counters of the neighbours and the
positions of the pairs as natural numbers.  In the code they are of type `int`, the number
of pairs of type `unsigned int` (find_neighbors_ops.cpp (ops),
store_neighbors_kernels.cu.cc (store), scan_alg_kernels.cu.cc).  Here the scan adds
modulo `2^32` and the positions are signed.
-/

set_option linter.unusedVariables false

namespace PC

/-- The value of an `int` with the bits of the natural number `x`. -/
def int32 (x : ℕ) : ℤ := Int.bmod x (2 ^ 32)

/-- `FindNeighborsOp::Compute` (ops:157-250) with `max_neighbors = 0` as `FindRun32`, with the
arithmetic of the machine also for the counters and positions: the scan (ops:216-217) adds `int`s,
which is addition modulo `2^32`; `nn` is the number of rows of the tensor of the pairs, the returned
`int` converted to `unsigned int` (ops:216, 221); `ends` is the first output, `writes` the sequence of
pairs written to the second output with the signed index `neighIndex` (store:164-165).  The model
keeps the counters as natural numbers and reduces them when they are used, which does not change any
result modulo `2^32`.  The number of neighbours of a single centre is taken as exact, it is not larger
than the number of points, which is an `int`. -/
def FindRunInt (S R Wc Ws Wn : ℕ) (rgs : List (ℕ → ℕ × ℕ)) (hit : ℕ → ℕ → Bool) (nn : ℕ)
    (ends : ℕ → ℤ) (writes : List (ℤ × (ℕ × ℕ))) : Prop :=
  ∃ (cnt start : ℕ → ℕ) (out : ℕ → ZMod (2 ^ 32)) (tot : ZMod (2 ^ 32)) (res : StoreMem),
    CountPasses32 S R 64 Wc hit rgs (fun _ => 0) cnt ∧
    ScanRun scanLog Ws 64 S (fun i => (cnt i : ZMod (2 ^ 32))) out tot ∧
    (∀ s < S, start s = (out s).val) ∧ nn = tot.val ∧
    StorePasses32 S R (storeThreads32 S R 64 Wn) hit rgs ⟨start, []⟩ res ∧
    (ends = fun s => int32 (res.cnt s)) ∧ writes = res.writes.map (fun w => (int32 w.1, w.2))

end PC
