import Verif.CudaStore
import Mathlib.Algebra.Order.Field.Rat

/-!
# CUDA neighbour search with a neighbour limit

`store_neighbors_limited_gpu_kernel` and its host code
(`find_neighbors/cc/kernels/store_neighbors_kernels.cu.cc:50-112, 173-230`, store),
`elem_wise_min_kernels.cu.cc`, `shared/cc/kernels/rnd_utils.h`.
-/

set_option linter.unusedVariables false

namespace PC

/-- `seed_to_float` (rnd_utils.h:46-49) on a 32 bit seed.  The return type is
`unsigned int`, so the value `float(seed) / 2^32` is truncated: it is 0, or 1
when `float(seed)` rounds up to `2^32`, which happens for the last 128 seeds. -/
def seedToFloat (u : ℕ) : ℕ := if u < 2 ^ 32 - 128 then 0 else 1

/-- A found pair and the random decisions that will be used for it if its sample
is over the limit: `accept` is `uniformVal < ratio` (store:102), `back` is the
second value of `neighIndex` (store:105). -/
structure LimItem where
  pt : ℕ
  sample : ℕ
  accept : Bool
  back : ℕ
  deriving DecidableEq

def LimItem.pair (x : LimItem) : ℕ × ℕ := (x.pt, x.sample)

/-- The decisions drawn from two seeds for a sample with `count` neighbours
(store:99-105): accepted if `uniformVal < m / count`, then
`floor(uniformVal * m) + 1`. -/
def LimItem.drawn (m count pt sample u1 u2 : ℕ) : LimItem :=
  ⟨pt, sample, decide ((seedToFloat u1 : ℚ) < (m : ℚ) / count), seedToFloat u2 * m + 1⟩

/-- Global memory: `pAuxCounter`, `pOutNumNeighs` and the writes to `pOutNeighs`
so far (addresses are signed: `pOutNumNeighs[s] - neighIndex` may be negative).
`reads` records the values of `pOutNumNeighs` read in store:106; it does not
influence the run. -/
structure LimMem where
  aux : ℕ → ℕ
  cnt : ℕ → ℕ
  writes : List (ℤ × (ℕ × ℕ))
  reads : List (ℕ × ℕ)

/-- What a thread does next. -/
inductive LimPend where
  /-- look at the next found pair -/
  | none
  /-- the auxiliary index was below the limit: store:96 -/
  | inc (x : LimItem)
  /-- the auxiliary index was not below the limit and the draw was accepted:
  read the counter, store:106 -/
  | look (x : LimItem)
  /-- the write of store:97 or 106 -/
  | write (a : ℤ) (x : LimItem)
  deriving DecidableEq

structure LimThread where
  todo : List LimItem
  pend : LimPend

/-- One step of a thread of `store_neighbors_limited_gpu_kernel` (store:92-108). -/
def limStep (m : ℕ) (mem : LimMem) (l : LimThread) : Option (LimMem × LimThread) :=
  match l.pend with
  | .write a x => some ({ mem with writes := mem.writes ++ [(a, x.pair)] }, ⟨l.todo, .none⟩)
  | .inc x => some ({ mem with cnt := Function.update mem.cnt x.sample (mem.cnt x.sample + 1) },
      ⟨l.todo, .write (mem.cnt x.sample) x⟩)
  | .look x => some ({ mem with reads := mem.reads ++ [(x.sample, mem.cnt x.sample)] },
      ⟨l.todo, .write ((mem.cnt x.sample : ℤ) - x.back) x⟩)
  | .none =>
    match l.todo with
    | x :: todo => some ({ mem with aux := Function.update mem.aux x.sample (mem.aux x.sample + 1) },
        ⟨todo, if mem.aux x.sample < m then .inc x else if x.accept then .look x else .none⟩)
    | [] => none

/-- A launch with `T` threads in any schedule, with the auxiliary counters zero
(store:197-199).  `ok` restricts the random decisions. -/
def LimKernel (m : ℕ) (ok : LimItem → Prop) (S R T : ℕ) (rg : ℕ → ℕ × ℕ) (hit : ℕ → ℕ → Bool)
    (mem mem' : LimMem) : Prop :=
  ∃ (prog : Fin T → List LimItem) (ls : Fin T → LimThread),
    (∀ t, (prog t).map LimItem.pair = storeProg S R T rg hit t) ∧ (∀ t, ∀ x ∈ prog t, ok x) ∧
    Steps (limStep m) ({ mem with aux := fun _ => 0 }, fun t => ⟨prog t, .none⟩) (mem', ls) ∧
    Halted (limStep m) (mem', ls)

/-- The storing passes (find_neighbors_ops.cpp:228-249). -/
inductive LimPasses (m : ℕ) (ok : LimItem → Prop) (S R T : ℕ) (hit : ℕ → ℕ → Bool) :
    List (ℕ → ℕ × ℕ) → LimMem → LimMem → Prop
  | nil (mem : LimMem) : LimPasses m ok S R T hit [] mem mem
  | cons {rg : ℕ → ℕ × ℕ} {rest : List (ℕ → ℕ × ℕ)} {m0 m1 m2 : LimMem}
      (h : LimKernel m ok S R T rg hit m0 m1) (next : LimPasses m ok S R T hit rest m1 m2) :
      LimPasses m ok S R T hit (rg :: rest) m0 m2

/-- `elem_wise_min_value_gpu` (elem_wise_min_kernels.cu.cc:37-54): every
iteration reads and writes its own element only. -/
def elemWiseMin (m : ℕ) (cnt : ℕ → ℕ) (s : ℕ) : ℕ := min m (cnt s)

/-- The output tensor; addresses outside are not part of it. -/
def LimMem.out (mem : LimMem) : ℤ → ℕ × ℕ := runWrites (fun _ => (0, 0)) mem.writes

/-- A run of `FindNeighborsOp::Compute` with `max_neighbors = m > 0`
(find_neighbors_ops.cpp:157-250), see `FindRun`. -/
def LimRun (m : ℕ) (ok : LimItem → Prop) (S R Wc Ws Wn : ℕ) (rgs : List (ℕ → ℕ × ℕ))
    (hit : ℕ → ℕ → Bool) (total : ℕ) (res : LimMem) : Prop :=
  ∃ (cnt start : ℕ → ℕ) (out : ℕ → ℤ), CountPasses S R 64 Wc hit rgs (fun _ => 0) cnt ∧
    ScanRun scanLog Ws 64 S (fun i => (elemWiseMin m cnt i : ℤ)) out (total : ℤ) ∧
    (∀ s < S, (start s : ℤ) = out s) ∧
    LimPasses m ok S R (storeThreads S R 64 Wn) hit rgs ⟨fun _ => 0, start, [], []⟩ res

end PC
