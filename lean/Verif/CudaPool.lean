import Verif.Sched
import Mathlib.Logic.Function.Basic

/-!
# Copying selected points on the GPU

Line references: `find_neighbors/cc/kernels/store_pooled_pts_kernels.cu.cc` (spp), which no op calls, and the
same kernel in `sampling/cc/kernels/store_sampled_pts_kernels.cu.cc` (ssp), called by the op `sampling`.  The model of the second kernel in `Verif/CudaSampling.lean` performs the
three writes of a point in one step; here they are single steps, so that other threads can run in between.
-/

set_option linter.unusedVariables false

namespace PC

section
variable {P : Type*}

/-- Global memory: the counter `pNumPooledPoints` and the three output arrays; `none` is memory that has not been written. -/
structure PoolMem (P : Type*) where
  cnt : ℕ
  pts : ℕ → Option P
  batch : ℕ → Option ℤ
  idx : ℕ → Option ℕ

/-- What a thread does next for point `i`, whose `saveIndex` is `s`. -/
inductive PoolCur where
  | idle
  | pts (i s : ℕ)
  | batch (i s : ℕ)
  | idx (i s : ℕ)

/-- A thread: the values of `curPtIndex` still to come, and what it does next. -/
structure PoolThread where
  todo : List ℕ
  cur : PoolCur

/-- One step of a thread (spp:60-67, ssp:60-67): the test together with the atomic addition, or one of the three writes. -/
def poolStep (sel : ℕ → ℤ) (pts : ℕ → P) (batch : ℕ → ℤ) (m : PoolMem P) (l : PoolThread) : Option (PoolMem P × PoolThread) :=
  match l.cur, l.todo with
  | .idle, [] => none
  | .idle, i :: rest =>
    if sel i = 1 then some ({ m with cnt := m.cnt + 1 }, ⟨rest, .pts i m.cnt⟩) else some (m, ⟨rest, .idle⟩)
  | .pts i s, todo => some ({ m with pts := Function.update m.pts s (some (pts i)) }, ⟨todo, .batch i s⟩)
  | .batch i s, todo => some ({ m with batch := Function.update m.batch s (some (batch i)) }, ⟨todo, .idx i s⟩)
  | .idx i s, todo => some ({ m with idx := Function.update m.idx s (some i) }, ⟨todo, .idle⟩)

/-- Memory and threads at the start of the launch with `T` threads (spp:53-58, 88-89, 114-119; ssp the same lines): the counter is 0. -/
def poolStart (N T : ℕ) : PoolMem P × (Fin T → PoolThread) :=
  (⟨0, fun _ => none, fun _ => none, fun _ => none⟩, fun t => ⟨strideLoop T N t, .idle⟩)

end

end PC
