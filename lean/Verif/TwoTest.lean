import Verif.CudaStore

/-!
# Counting and storing evaluate the distance test separately

The op that finds neighbours evaluates the distance test twice: the counting kernel
(`custom_ops/tfg_custom_ops/find_neighbors/cc/kernels/count_neighbors_kernels.cu.cc:85`)
to size the output and to give every sample its range of slots, and the storing kernel
(`store_neighbors_kernels.cu.cc:162`) to fill the slots.  Both files contain the same
expression, but they are compiled separately, and nothing in the storing kernel compares
its slot with the end of the range.  `CudaStore.lean` uses one test for both; here the
two outcomes are separate parameters.
-/

namespace PC

/-- A run of `FindNeighborsOp::Compute` (find_neighbors/cc/ops/find_neighbors_ops.cpp:157-250)
with `max_neighbors = 0` as `FindRun`, in which the counting kernel decides by `hitC` and the storing
kernel by `hitS`. -/
def FindRun2 (S R Wc Ws Wn : ℕ) (rgs : List (ℕ → ℕ × ℕ)) (hitC hitS : ℕ → ℕ → Bool) (total : ℕ)
    (res : StoreMem) : Prop :=
  ∃ (cnt start : ℕ → ℕ) (out : ℕ → ℤ), CountPasses S R 64 Wc hitC rgs (fun _ => 0) cnt ∧
    ScanRun scanLog Ws 64 S (fun i => (cnt i : ℤ)) out (total : ℤ) ∧
    (∀ s < S, (start s : ℤ) = out s) ∧
    StorePasses S R (storeThreads S R 64 Wn) hitS rgs ⟨start, []⟩ res

end PC
