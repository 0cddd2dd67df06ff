import Verif.CudaStore
import Verif.CudaSampling
import Verif.CudaProj

/-!
# Barriers

`__syncthreads` must be executed by all threads of a block (CUDA C++ programming guide: in
conditional code only if the condition is the same across the block).  For every kernel
with barriers: the source lines of the barriers a thread executes, in program order.
-/

set_option linter.unusedVariables false

namespace PC

/-- All threads of each of `TB` blocks of `B` threads execute the same barriers; `f b t` are those
of thread `t` of block `b`. -/
def UniformBarriers (B TB : ℕ) (f : ℕ → ℕ → List ℕ) : Prop :=
  ∀ b < TB, ∀ t < B, ∀ t' < B, f b t = f b t'

/-- `count_neighbors_gpu_kernel` (count_neighbors_kernels.cu.cc:58-101) for `S` samples and `R` ranges. -/
def countBarriers (S R B TB b t : ℕ) : List ℕ :=
  (strideLoop (TB * B) (findIters S R) (b * B + t)).flatMap (fun _ => [69, 91, 100])

/-- `scan_alg_gpu_kernel` (scan_alg_kernels.cu.cc:55-129) with `2 ^ L` threads: the loops over `d` halve it from
`2 ^ L` to 1 and double it from 1 to `2 ^ L`. -/
def scanBarriers (L EB TB b t : ℕ) : List ℕ :=
  (strideLoop (TB * 2 ^ L) (EB * 2 ^ L) (b * 2 ^ L + t)).flatMap (fun _ =>
    List.replicate (L + 1) 77 ++ List.replicate (L + 1) 99 ++ [111, 120, 128])

/-- `propagate_down_counters_gpu_kernel` (scan_alg_kernels.cu.cc:155-168) for `N` elements. -/
def propBarriers (L N P TB b t : ℕ) : List ℕ :=
  (strideLoop (TB * P) N (b * P + t + chunkLen L)).flatMap (fun _ => [164])

/-- `count_unique_keys_gpu_kernel` (count_unique_keys_kernels.cu.cc:41-67). -/
def keyBarriers (N B TB b t : ℕ) : List ℕ :=
  [46] ++ (strideLoop (TB * B) (N - 1) (b * B + t)).flatMap (fun _ => []) ++ [62]

section
variable {α : Type*} [Field α]

/-- `compute_weighted_in_features` (basis_proj_kernels.cu.cc:52-126). -/
def projBarriers (I : ProjIn α) (c : ProjCfg) (TB b t : ℕ) : List ℕ :=
  (strideLoop TB (I.total c) b).flatMap (fun it =>
    (strideLoop c.G (c.rounded (I.hi c it - I.lo c it)) (c.gid t)).flatMap (fun _ => [98, 107]) ++ [125])

/-- `compute_weighted_in_features_grads` (basis_proj_grads_kernels.cu.cc:55-150). -/
def gradBarriers (I : ProjIn α) (c : ProjCfg) (TB b t : ℕ) : List ℕ :=
  (strideLoop TB (I.total c) b).flatMap (fun it =>
    [80] ++ (strideLoop c.G (c.rounded (I.hi c it - I.lo c it)) (c.gid t)).flatMap (fun _ => [108, 125, 148]))

end

end PC
