import Verif.BlockMem
import Verif.CudaPdf
import Verif.Layers

/-!
# CUDA basis projection and its gradient

`custom_ops/tfg_custom_ops/basis_proj/cc/kernels/basis_proj_kernels.cu.cc`
(in the following: proj), `basis_proj_grads_kernels.cu.cc` (proj_grads),
`basis_utils.h`, `basis_proj/cc/ops/basis_proj_ops.cpp` (proj_ops).

Floats are elements of any type with the operations the kernels use (no laws are assumed; the
claims of C62 are about fields, those of C127 about all such types), integers unbounded naturals, tensors are flat
(row-major) functions on ℕ.  `B` is the number of threads of a block, `K` the
number of basis functions, `G = B / K` the number of groups of a block.
Constant inputs are read directly; shared memory and registers are block memory
with arbitrary contents when a block starts.
-/

set_option linter.unusedVariables false

namespace PC

/-- Block memory: the dynamic shared memory and the registers of the threads. -/
inductive ProjAddr
  | sh (i : ℕ)
  | reg (t r : ℕ)
  deriving DecidableEq

open ProjAddr

/-- Inputs of `basis_proj` (proj_ops:78-94). -/
structure ProjIn (α : Type*) where
  S : ℕ            -- number of samples
  nf : ℕ           -- number of features
  K : ℕ            -- number of basis functions
  basis : ℕ → α
  feats : ℕ → α
  nb : ℕ → ℕ × ℕ
  ends : ℕ → ℕ

/-- The checks of the operation (proj_ops:98-113; basis_utils.h:26-31). -/
def projBasisOk (K : ℕ) : Bool := K = 8 || K = 16 || K = 32 || K = 64
def projFeatOk (nf : ℕ) : Bool := 0 < nf && (nf < 8 || nf % 8 = 0)

/-- `groupFeatSize` (proj:159, proj_grads:187). -/
def groupFeat (nf : ℕ) : ℕ := min 8 nf

/-- Launch constants: block size, number of basis functions, group of features. -/
structure ProjCfg where
  B : ℕ
  K : ℕ
  gf : ℕ

/-- `numGroupsXBlock` (proj:46). -/
def ProjCfg.G (c : ProjCfg) : ℕ := c.B / c.K
/-- `localId`, `groupId` (proj:48-49). -/
def ProjCfg.lid (c : ProjCfg) (t : ℕ) : ℕ := t % c.K
def ProjCfg.gid (c : ProjCfg) (t : ℕ) : ℕ := t / c.K
/-- Begin of `features` in shared memory (proj:42, proj_grads:51). -/
def ProjCfg.featPtr (c : ProjCfg) : ℕ := c.B * c.gf
/-- Begin of `inFeatGrads` (proj_grads:52-53). -/
def ProjCfg.gradPtr (c : ProjCfg) : ℕ := c.B * c.gf + c.G * c.gf

/-- Rounded number of neighbours (proj:65-66). -/
def ProjCfg.rounded (c : ProjCfg) (n : ℕ) : ℕ := n + (c.G - n % c.G)

section
variable {α : Type*} [Zero α] [Add α] [Sub α] [Mul α]

/-- `sampleId`, `featureOffset` (proj:58-59) of iteration `it`. -/
def ProjIn.sample (I : ProjIn α) (c : ProjCfg) (it : ℕ) : ℕ := it / (I.nf / c.gf)
def ProjIn.off (I : ProjIn α) (c : ProjCfg) (it : ℕ) : ℕ := (it % (I.nf / c.gf)) * c.gf
/-- `totalBlocks` (proj:50). -/
def ProjIn.total (I : ProjIn α) (c : ProjCfg) : ℕ := I.S * (I.nf / c.gf)

/-- `rangePts` (proj:62-64). -/
def ProjIn.lo (I : ProjIn α) (c : ProjCfg) (it : ℕ) : ℕ := rangeStart I.ends (I.sample c it)
def ProjIn.hi (I : ProjIn α) (c : ProjCfg) (it : ℕ) : ℕ := I.ends (I.sample c it)

/-- The neighbour position of thread `t` in pass `k` of the loop over the
neighbours (proj:74-78): `curNeighIter = groupId + k * numGroupsXBlock`. -/
def ProjIn.pos (I : ProjIn α) (c : ProjCfg) (it k t : ℕ) : ℕ := c.gid t + k * c.G + I.lo c it

/-- Number of passes of the loop, the same for all threads (`C123_proj`). -/
def ProjIn.passes (I : ProjIn α) (c : ProjCfg) (it : ℕ) : ℕ :=
  c.rounded (I.hi c it - I.lo c it) / c.G

abbrev ProjAct (α : Type*) := BAct ProjAddr α (ℕ × α)

/-- Initialisation of the accumulators (proj:68-71). -/
def projInit (c : ProjCfg) (t : ℕ) : List (ProjAct α) :=
  (List.range c.gf).map (fun f => setB (sh (f * c.B + t)) (fun _ => 0))

/-- Loading of weight (register 0) and features (proj:78-96). -/
def projLoad (I : ProjIn α) (c : ProjCfg) (it k t : ℕ) : List (ProjAct α) :=
  let j := I.pos c it k t
  if j < I.hi c it then
    setB (reg t 0) (fun _ => I.basis (j * c.K + c.lid t)) ::
    (if c.lid t < c.gf then
      [setB (sh (c.featPtr + (c.gid t * c.gf + c.lid t)))
        (fun _ => I.feats ((I.nb j).1 * I.nf + I.off c it + c.lid t))] else [])
  else
    setB (reg t 0) (fun _ => 0) ::
    (if c.lid t < c.gf then [setB (sh (c.featPtr + (c.gid t * c.gf + c.lid t))) (fun _ => 0)] else [])

/-- Accumulation (proj:100-105). -/
def projAcc (c : ProjCfg) (t : ℕ) : List (ProjAct α) :=
  (List.range c.gf).map (fun f => setB (sh (f * c.B + t))
    (fun m => m (sh (f * c.B + t)) + m (sh (c.featPtr + (c.gid t * c.gf + f))) * m (reg t 0)))

/-- Sum over the groups and output (proj:111-124); register 1 is
`accumContribs`. -/
def projSave (I : ProjIn α) (c : ProjCfg) (it t : ℕ) : List (ProjAct α) :=
  if t < c.K then
    (List.range c.gf).flatMap (fun f =>
      setB (reg t 1) (fun _ => 0) ::
      (List.range c.G).map (fun g => setB (reg t 1)
        (fun m => m (reg t 1) + m (sh (f * c.B + c.lid t + g * c.K)))) ++
      [emitB (fun m => (I.sample c it * I.nf * c.K + (I.off c it + f) * c.K + c.lid t, m (reg t 1)))])
  else []

/-- The threads of a block. -/
def projThreads (c : ProjCfg) (prog : ℕ → List (ProjAct α)) : List (List (ProjAct α)) :=
  (List.range c.B).map prog

/-- The phases between the barriers of one iteration of the outer loop
(proj:52-127); there is no barrier between initialisation and first load. -/
def projPhases (I : ProjIn α) (c : ProjCfg) (it : ℕ) : List (List (List (ProjAct α))) :=
  (List.range (I.passes c it)).flatMap (fun k =>
    [projThreads c (fun t => (if k = 0 then projInit c t else []) ++ projLoad I c it k t),
     projThreads c (projAcc c)]) ++
  [projThreads c (projSave I c it)]

/-- Effects of block `b` of `TB` blocks: the outer loop takes the iterations
`b, b + TB, …`. -/
def ProjBlock (I : ProjIn α) (c : ProjCfg) (TB b : ℕ) (eff : List (ℕ × α)) : Prop :=
  ∃ (m : ProjAddr → α) (p : List (ProjAct α)),
    Phased ((strideLoop TB (I.total c) b).flatMap (projPhases I c)) p ∧ eff = (runB m p).2

/-- The configuration chosen by the host code (proj:155-160). -/
def projCfg (I : ProjIn α) : ProjCfg := ⟨64, I.K, groupFeat I.nf⟩

/-- A run of `basis_proj_gpu` (proj:132-184): the output is set to zero, then
`TB` blocks are launched whose effects interleave; `W = numMP*numBlocks`. -/
def ProjFwd (I : ProjIn α) (W : ℕ) (out : ℕ → α) : Prop :=
  ∃ (effs : List (List (ℕ × α))) (tr : List (ℕ × α)),
    effs.length = launchBlocks W (I.total (projCfg I)) ∧
    (∀ b e, effs[b]? = some e → ProjBlock I (projCfg I) effs.length b e) ∧
    Interleave effs tr ∧ out = runWrites (fun _ => 0) tr

/-! ### gradient -/

/-- Global addresses of the gradient kernel: basis gradients (`inl`) and feature
gradients (`inr`). -/
abbrev GradAct (α : Type*) := BAct ProjAddr α ((ℕ ⊕ ℕ) × α)

/-- Loading of the upstream gradients `g` of the sample (proj_grads:73-78). -/
def gradInit (I : ProjIn α) (c : ProjCfg) (g : ℕ → α) (it t : ℕ) : List (GradAct α) :=
  (strideLoop c.B (c.K * c.gf) t).map (fun a => setB (sh (c.gradPtr + a))
    (fun _ => g (I.sample c it * I.nf * c.K + I.off c it * c.K + a)))

/-- Start of a pass (proj_grads:87-109): registers 0 `curWeight`,
1 `curWeightGrad`, 2 `curWeightAccumError`. -/
def gradLoad (I : ProjIn α) (c : ProjCfg) (it k t : ℕ) : List (GradAct α) :=
  let j := I.pos c it k t
  [setB (reg t 0) (fun _ => 0), setB (reg t 1) (fun _ => 0), setB (reg t 2) (fun _ => 0)] ++
  (if j < I.hi c it then
    setB (reg t 0) (fun _ => I.basis (j * c.K + c.lid t)) ::
    (if c.lid t < c.gf then
      [setB (sh (c.featPtr + (c.gid t * c.gf + c.lid t)))
        (fun _ => I.feats ((I.nb j).1 * I.nf + I.off c it + c.lid t))] else [])
  else [])

/-- A step of compensated summation of `x` with accumulator in register `a`,
error in register `e`; registers 3 and 4 are `auxVar1`, `auxVar2`
(proj_grads:118-124, 138-142). -/
def kahanActs (t a e : ℕ) (x : (ProjAddr → α) → α) : List (GradAct α) :=
  [setB (reg t 3) (fun m => x m - m (reg t e)),
   setB (reg t 4) (fun m => m (reg t a) + m (reg t 3)),
   setB (reg t e) (fun m => (m (reg t 4) - m (reg t a)) - m (reg t 3)),
   setB (reg t a) (fun m => m (reg t 4))]

/-- Products with the feature gradients (proj_grads:112-125). -/
def gradComp (c : ProjCfg) (t : ℕ) : List (GradAct α) :=
  (List.range c.gf).flatMap (fun f =>
    setB (sh (f * c.B + t)) (fun m => m (sh (c.gradPtr + (f * c.K + c.lid t))) * m (reg t 0)) ::
    kahanActs t 1 2 (fun m => m (sh (c.gradPtr + (f * c.K + c.lid t))) *
      m (sh (c.featPtr + (c.gid t * c.gf + f)))))

/-- Atomic additions to the outputs (proj_grads:130-148); registers 5 `accum`,
6 `accumError`. -/
def gradOut (I : ProjIn α) (c : ProjCfg) (it k t : ℕ) : List (GradAct α) :=
  let j := I.pos c it k t
  if j < I.hi c it then
    emitB (fun m => (Sum.inl (j * c.K + c.lid t), m (reg t 1))) ::
    (if c.lid t < c.gf then
      [setB (reg t 5) (fun _ => 0), setB (reg t 6) (fun _ => 0)] ++
      (List.range c.K).flatMap (fun kk =>
        kahanActs t 5 6 (fun m => m (sh (c.lid t * c.B + c.gid t * c.K + kk)))) ++
      [emitB (fun m => (Sum.inr ((I.nb j).1 * I.nf + I.off c it + c.lid t), m (reg t 5)))] else [])
  else []

/-- The threads of a block. -/
def gradThreads (c : ProjCfg) (prog : ℕ → List (GradAct α)) : List (List (GradAct α)) :=
  (List.range c.B).map prog

/-- The phases of one iteration of the outer loop (proj_grads:55-151). -/
def gradPhases (I : ProjIn α) (c : ProjCfg) (g : ℕ → α) (it : ℕ) : List (List (List (GradAct α))) :=
  [gradThreads c (gradInit I c g it)] ++
  (List.range (I.passes c it)).flatMap (fun k =>
    [gradThreads c (gradLoad I c it k), gradThreads c (gradComp c), gradThreads c (gradOut I c it k)])

/-- Effects of block `b`. -/
def GradBlock (I : ProjIn α) (c : ProjCfg) (g : ℕ → α) (TB b : ℕ) (eff : List ((ℕ ⊕ ℕ) × α)) : Prop :=
  ∃ (m : ProjAddr → α) (p : List (GradAct α)),
    Phased ((strideLoop TB (I.total c) b).flatMap (gradPhases I c g)) p ∧ eff = (runB m p).2

/-- A run of `basis_proj_grads_gpu` (proj_grads:156-215): both outputs are set to
zero; `out (inl i)` are the gradients of the basis values, `out (inr i)` of the
features. -/
def ProjGrad (I : ProjIn α) (g : ℕ → α) (W : ℕ) (out : ℕ ⊕ ℕ → α) : Prop :=
  ∃ (effs : List (List ((ℕ ⊕ ℕ) × α))) (tr : List ((ℕ ⊕ ℕ) × α)),
    effs.length = launchBlocks W (I.total (projCfg I)) ∧
    (∀ b e, effs[b]? = some e → GradBlock I (projCfg I) g effs.length b e) ∧
    Interleave effs tr ∧ out = runAtomics (fun _ => 0) tr

/-- A tensor of shape `[n, d]` in memory (row-major); 0 outside. -/
def flat2 {n d : ℕ} (x : Fin n → Fin d → α) (i : ℕ) : α :=
  if h : i / d < n ∧ 0 < d then x ⟨i / d, h.1⟩ ⟨i % d, Nat.mod_lt _ h.2⟩ else 0

/-- The inputs the wrapper `basis_proj` hands to the operation
(custom_ops_wrapper.py:172-189): basis values, features, the original neighbour
pairs and the ends of the neighbourhoods. -/
def projArgs {n m nf K : ℕ} (pairs : List (Fin n × Fin m)) (ends : ℕ → ℕ)
    (basis : Fin pairs.length → Fin K → α) (f : Fin n → Fin nf → α) : ProjIn α where
  S := m
  nf := nf
  K := K
  basis := flat2 basis
  feats := flat2 f
  nb := fun j => match pairs[j]? with
    | some p => (p.1.val, p.2.val)
    | none => (0, 0)
  ends := ends

/-- Shared memory of both kernels in floats (proj:162, proj_grads:190). -/
def projShared (c : ProjCfg) : ℕ := c.B * (c.gf + 1)
def gradShared (c : ProjCfg) : ℕ := c.gf * (c.B + c.B / c.K + c.K)

end
end PC
