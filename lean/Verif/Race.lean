import Verif.CudaProj
import Verif.CudaSampling
import Verif.CudaLimit
import Verif.CudaGrid

/-!
# Data races

Which memory locations the actions of the kernels access, and when two accesses
conflict.  A launch has a data race if two threads access the same location, at
least one of them writes, they are not both atomic, and no barrier orders them:
threads of one block are ordered by `__syncthreads`, nothing orders different
blocks.  The accesses of an action are not declared but computed from what the
action does (`memAccess`, `blockAcc`); only the kind of an update (plain or
atomic) is taken from the code.

Inputs that are constant during a launch (`const … __restrict__` pointers) are
not locations of the models: they are never written.
-/

set_option linter.unusedVariables false

namespace PC

/-- Kinds of accesses. -/
inductive AccKind
  | read | write | atomic
  deriving DecidableEq

/-- Two accesses (of different threads, not ordered by a barrier) that form a data
race: same location, not both reads, not both atomic. -/
def Conflict {A : Type*} (x y : A × AccKind) : Prop :=
  x.1 = y.1 ∧ ¬ (x.2 = .read ∧ y.2 = .read) ∧ ¬ (x.2 = .atomic ∧ y.2 = .atomic)

/-- No action of `p` conflicts with an action of `p'`; `acc` are the accesses of an
action. -/
def NoConflict {α A : Type*} (acc : α → Set (A × AccKind)) (p p' : List α) : Prop :=
  ∀ a ∈ p, ∀ a' ∈ p', ∀ x ∈ acc a, ∀ y ∈ acc a', ¬ Conflict x y

/-- A launch of `TB` blocks without data race: block `b` has the phases `ph b` between
its barriers, `acc b` are the accesses of its actions. -/
structure LaunchOk {α A : Type*} (acc : ℕ → α → Set (A × AccKind)) (TB : ℕ)
    (ph : ℕ → List (List (List α))) : Prop where
  within : ∀ b < TB, ∀ ps ∈ ph b, ps.Pairwise (NoConflict (acc b))
  across : ∀ b < TB, ∀ b' < TB, b ≠ b' → ∀ ps ∈ ph b, ∀ p ∈ ps, ∀ ps' ∈ ph b', ∀ p' ∈ ps',
    ∀ a ∈ p, ∀ a' ∈ p', ∀ x ∈ acc b a, ∀ y ∈ acc b' a', ¬ Conflict x y

/-- A launch of threads with a step function and without barriers, started in `c0`, has
no data race: whatever a thread `t` is about to access at some moment does not
conflict with what another thread is about to access at that moment or later. -/
def StepsOk {S L A : Type*} {T : ℕ} (step : S → L → Option (S × L)) (access : S → L → Set (A × AccKind))
    (c0 : S × (Fin T → L)) : Prop :=
  ∀ c c', Steps step c0 c → Steps step c c' → ∀ t t', t ≠ t' →
    ∀ x ∈ access c.1 (c.2 t), ∀ y ∈ access c'.1 (c'.2 t'), ¬ Conflict x y

/-- Accesses of an action on memory: it writes the locations it can change, it
reads the locations that influence others. -/
def memAccess {A V : Type*} (act : (A → V) → (A → V)) : Set (A × AccKind) :=
  { x | (x.2 = .write ∧ ∃ m, act m x.1 ≠ m x.1) ∨
    (x.2 = .read ∧ ∃ m m' : A → V, (∀ a, a ≠ x.1 → m a = m' a) ∧ ∃ a, a ≠ x.1 ∧ act m a ≠ act m' a) }

/-- Accesses of an action of block `b` on the memory of the block (`inl`) with effects
on global memory (`inr`): `mk` and `ek` are the kinds of the changes of block
memory and of the effects. -/
def blockAcc {A V G W : Type*} (mk ek : AccKind) (b : ℕ) (act : BAct A V (G × W)) :
    Set (((ℕ × A) ⊕ G) × AccKind) :=
  { x | (∃ a, x = (Sum.inl (b, a), mk) ∧ ∃ m, (act m).1 a ≠ m a) ∨
    (∃ a, x = (Sum.inl (b, a), .read) ∧ ∃ m m' : A → V, (∀ a', a' ≠ a → m a' = m' a') ∧
      ((∃ a', a' ≠ a ∧ (act m).1 a' ≠ (act m').1 a') ∨ (act m).2 ≠ (act m').2)) ∨
    ∃ g, x = (Sum.inr g, ek) ∧ ∃ m, g ∈ (act m).2.map Prod.fst }

/-- Kernels whose threads only write outputs: the access of a write. -/
def writeAcc {A V : Type*} (w : A × V) : Set (A × AccKind) := {(w.1, .write)}

/-- Kernels whose threads only perform atomic additions. -/
def atomicAcc {A V : Type*} (w : A × V) : Set (A × AccKind) := {(w.1, .atomic)}

/-- Accesses of `count_neighbors_gpu_kernel` (count_neighbors_kernels.cu.cc:59-101): the
additions to `localCounter` (line 87) and to the global counters are atomic. -/
def countAcc (R B : ℕ) (b : ℕ) (a : CountAct) : Set (((ℕ × ℕ) ⊕ ℕ) × AccKind) :=
  blockAcc (match a with | .hit _ _ => .atomic | _ => .write) .atomic b (fun sh => a.run R B sh)

/-- The actions of `count_unique_keys_gpu_kernel` as functions on the memory of the block
(the shared variable `localCounter`) with atomic additions to the global counter. -/
def KeyAct.toB : KeyAct → BAct Unit ℕ (Unit × ℕ)
  | .zero => fun m => (fun _ => 0, [])
  | .inc => fun m => (fun _ => m () + 1, [])
  | .flush => fun m => (m, [((), m ())])

/-- Accesses of `count_unique_keys_gpu_kernel` (count_unique_keys_kernels.cu.cc:41-67). -/
def keyAcc (b : ℕ) (a : KeyAct) : Set (((ℕ × Unit) ⊕ Unit) × AccKind) :=
  blockAcc (match a with | .inc => .atomic | _ => .write) .atomic b a.toB

/-- What a thread of `store_neighbors_gpu_kernel` (store_neighbors_kernels.cu.cc:164-165),
`store_unique_keys_gpu_kernel` or `store_sampled_pts_gpu_kernel` accesses next:
a counter (`inl`) atomically, or a slot of the output (`inr`). -/
def storeAccess (m : StoreMem) (l : StoreThread) : Set ((ℕ ⊕ ℕ) × AccKind) :=
  match l.pend, l.todo with
  | some w, _ => {(Sum.inr w.1, .write)}
  | none, x :: _ => {(Sum.inl x.2, .atomic)}
  | none, [] => ∅

/-- Locations of `store_neighbors_limited_gpu_kernel`: `pAuxCounter`, `pOutNumNeighs`,
`pOutNeighs`. -/
inductive LimAddr
  | aux (s : ℕ)
  | cnt (s : ℕ)
  | out (a : ℤ)
  deriving DecidableEq

/-- What a thread of `store_neighbors_limited_gpu_kernel` accesses next
(store_neighbors_kernels.cu.cc:92-108): line 94 and 96 are atomic, line 106 reads the
counter without. -/
def limAccess (m : LimMem) (l : LimThread) : Set (LimAddr × AccKind) :=
  match l.pend, l.todo with
  | .write a _, _ => {(.out a, .write)}
  | .inc x, _ => {(.cnt x.sample, .atomic)}
  | .look x, _ => {(.cnt x.sample, .read)}
  | .none, x :: _ => {(.aux x.sample, .atomic)}
  | .none, [] => ∅

/-- What a thread of `count_sampled_pd_gpu_kernel` accesses next
(count_sampling_pd_kernels.cu.cc:82-104): `some i` is `pUsed[i]`, `none` the counter. -/
def pdAccess (m : PdMem) (l : PdThread) : Set (Option ℕ × AccKind) :=
  match l.cur with
  | .mark i => {(some i, .write)}
  | .scan _ (n :: _) _ => {(some n, .read)}
  | .scan _ [] true => {(none, .atomic)}
  | _ => ∅

end PC
