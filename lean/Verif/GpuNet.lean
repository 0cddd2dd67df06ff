import Verif.GpuLayer
import Verif.CudaSampling
import Verif.Nets

/-!
# The classification networks on the GPU

`Hierarchy.lean` and `Nets.lean` with the CUDA operations in place of the
TensorFlow functions (`pylib/pc/custom_ops/__init__.py:19-37`): the searches, the
sampling, the convolutions and the max pooling are runs of the kernels.  Dense
layers, batch normalisations, gathers and global pooling are TensorFlow functions
in both cases.  Simplifications as in these files and in `GpuLayer.lean`.
-/

set_option linter.unusedVariables false

namespace PC

section
variable {K : Type*} [Field K] [LinearOrder K] [FloorRing K] {k : ℕ}

/-- The values `pNeighbors[n].x` in the range of sample `i` (count_sampling_pd_kernels.cu.cc:83-95)
for the result of a search. -/
def Pairs.lists {n m : ℕ} (nb : Pairs n m) (i : ℕ) : List ℕ :=
  let lo := if i > 0 then nb.ranges.getD (i - 1) 0 else 0
  ((nb.pairs.drop lo).take (nb.ranges.getD i 0 - lo)).map (fun p => p.1.val)

/-- A run of `sample` (sampling.py:123-150) on the GPU: the neighbourhood of the
sorted points with the cell sizes as radii (PointHierarchy.py:80-83), the operation
`sampling` with mode `mode`, and the new cloud. -/
def GpuSample (Ws : ℕ) (g : Grid (k + 2) K) (mode : ℕ) (c : Cloud (Fin (k + 2) → K)) : Prop :=
  ∃ (nb : Pairs g.c.n g.cuSorted.n) (Vc Vs Vp Vo n : ℕ), GpuFind Ws g g.cuSorted g.cs nb ∧
    0 < Vc ∧ 0 < Vs ∧ 0 < Vp ∧ 0 < Vo ∧
    if mode = 0 then
      ∃ out : StoreMem, PdRun g.c.n Vc Vs Vp Vo (cuSortedKeys g) (cuNc g) nb.lists n out ∧
        c = ⟨n, fun u => (g.cuSorted.center (out.out u.val).1).2, fun u => (g.cuSorted.center (out.out u.val).1).1, g.c.B⟩
    else
      ∃ out : ℕ → (Fin (k + 2) → K) × ℤ,
        AvgRun g.c.n Vc Vs Vo (cuSortedKeys g) (cuNc g) (fun i => (g.cuSorted.center i).2) n out ∧
        c = ⟨n, fun s => (out s.val).1, fun s => (out s.val).2.toNat, g.c.B⟩

/-- One iteration of the constructor's loop (PointHierarchy.py:54-98) on the GPU; see
`LevelStep`. -/
inductive GpuLevelStep (Ws : ℕ) (eps : K) (lower : String → String) (mode : String)
    (bs : Option (List ℕ)) (o : CloudObj (Fin (k + 2) → K)) (a : Arg K) :
    Except Err (CloudObj (Fin (k + 2) → K)) → Prop
  | badSizes (e) : completeCellSizes (k + 2) a = .error e → GpuLevelStep Ws eps lower mode bs o a (.error e)
  | badMode (l) : completeCellSizes (k + 2) a = .ok l → sampleModes (lower mode) = none →
      GpuLevelStep Ws eps lower mode bs o a (.error .keyError)
  | badShape (l m c e) : completeCellSizes (k + 2) a = .ok l → sampleModes (lower mode) = some m →
      GpuSample Ws ⟨o.c, vecOf l, eps⟩ m c →
      ((CloudObj.ofCloud c).setBatchShape bs).1 = .error e →
      GpuLevelStep Ws eps lower mode bs o a (.error e)
  | ok (l m c) : completeCellSizes (k + 2) a = .ok l → sampleModes (lower mode) = some m →
      GpuSample Ws ⟨o.c, vecOf l, eps⟩ m c →
      ((CloudObj.ofCloud c).setBatchShape bs).1 = .ok () →
      GpuLevelStep Ws eps lower mode bs o a (.ok ((CloudObj.ofCloud c).setBatchShape bs).2)

/-- The loop over all cell sizes: possible lists of clouds below the input, or an
exception. -/
inductive GpuLevels (Ws : ℕ) (eps : K) (lower : String → String) (mode : String)
    (bs : Option (List ℕ)) : CloudObj (Fin (k + 2) → K) → List (Arg K) →
    Except Err (List (CloudObj (Fin (k + 2) → K))) → Prop
  | nil (o) : GpuLevels Ws eps lower mode bs o [] (.ok [])
  | fail (o a as e) : GpuLevelStep Ws eps lower mode bs o a (.error e) →
      GpuLevels Ws eps lower mode bs o (a :: as) (.error e)
  | failLater (o a as o' e) : GpuLevelStep Ws eps lower mode bs o a (.ok o') →
      GpuLevels Ws eps lower mode bs o' as (.error e) →
      GpuLevels Ws eps lower mode bs o (a :: as) (.error e)
  | cons (o a as o' rest) : GpuLevelStep Ws eps lower mode bs o a (.ok o') →
      GpuLevels Ws eps lower mode bs o' as (.ok rest) →
      GpuLevels Ws eps lower mode bs o (a :: as) (.ok (o' :: rest))

end

section
variable {k : ℕ}

/-- Call of a convolution without neighbourhood and with the default bandwidth
(MCConv.py:196-205, PointConv.py:204-213) or influence distance (KPConv.py:234-243) on
the GPU; see `NetConv.call`. -/
def NetConv.GpuCall (E : NetEnv) (Ws : ℕ) (L : NetConv (k + 2)) (cin cout : Cloud (Fin (k + 2) → ℝ)) (radius : ℝ)
    (f : Fin cin.n → ℕ → ℝ) (res : Except Err (Fin cout.n → ℕ → ℝ)) : Prop :=
  match L with
  | .mc L => ∃ out, L.GpuCall E.act Ws E.eps cin cout radius (1 / 5) f out ∧ res = .ok out
  | .pc L => ∃ out, L.GpuCall E.act Ws E.eps cin cout radius (1 / 5) f out ∧ res = .ok out
  | .kp L => ∃ r, L.GpuCall Ws E.eps cin cout radius none f r ∧
      res = match r with
        | .error e => .error e
        | .ok (n, out) => if n = cout.n then .ok (fun i => out i.val) else .error .invalidArgument

/-- First skip layer (modelnet40.py:191-195, 245-248) on the GPU; see `NetBlock.pool`. -/
def NetBlock.GpuPool (E : NetEnv) (Ws : ℕ) (b : NetBlock (k + 2)) (cin cout : Cloud (Fin (k + 2) → ℝ))
    (radius : ℝ) (f : Fin cin.n → ℕ → ℝ) (res : Except Err (Fin cout.n → ℕ → ℝ)) : Prop :=
  if b.strided then
    ∃ out, PC.GpuPool Ws .max E.eps cin cout radius f out ∧ res = .ok (fun i ch => (out i ch).getD E.lowest)
  else res = if h : cout.n = cin.n then .ok (fun i => f (Fin.cast h i)) else .error .invalidArgument

/-- `conv_block.__call__` (modelnet40.py:205-257) on the GPU; see `NetBlock.run`. -/
def NetBlock.GpuRun (E : NetEnv) (Ws : ℕ) (b : NetBlock (k + 2)) (cin cout : Cloud (Fin (k + 2) → ℝ)) (convRadius : ℝ)
    (radius : ℝ) (f : Fin cin.n → ℕ → ℝ) (res : Except Err (Fin cout.n → ℕ → ℝ)) : Prop :=
  ∃ r, b.conv.GpuCall E Ws cin cout convRadius (E.bnAct b.bn1 (b.down.apply (E.bnAct b.bn0 f))) r ∧
    match r with
    | .error e => res = .error e
    | .ok r => ∃ s, b.GpuPool E Ws cin cout radius f s ∧
      match s with
      | .error e => res = .error e
      | .ok s =>
        let skip := match b.proj with
          | none => s
          | some (bn, l) => l.apply (E.bnAct bn s)
        res = .ok (fun i ch => b.up.apply (E.bnAct b.bn2 r) i ch + skip i ch)

/-- The levels after the first (modelnet40.py:377-389) on the GPU; see `net40Loop`. -/
def gpuNet40Loop (E : NetEnv) (Ws : ℕ) : (o : CloudObj (Fin (k + 2) → ℝ)) → (Fin o.c.n → ℕ → ℝ) →
    List (CloudObj (Fin (k + 2) → ℝ)) → List (Level40 (k + 2)) →
    Except Err ((o : CloudObj (Fin (k + 2) → ℝ)) × (Fin o.c.n → ℕ → ℝ)) → Prop
  | o, f, [], [], res => res = .ok ⟨o, f⟩
  | o, f, o' :: os, l :: ls, res =>
    ∃ r1, l.strided.GpuRun E Ws o.c o'.c l.poolRadius l.poolRadius f r1 ∧
      match r1 with
      | .error e => res = .error e
      | .ok f1 => ∃ r2, l.block.GpuRun E Ws o'.c o'.c l.convRadius 0 f1 r2 ∧
        match r2 with
        | .error e => res = .error e
        | .ok f2 => gpuNet40Loop E Ws o' f2 os ls res
  | _, _, _, _, res => res = .error .indexError

/-- `mymodel.__call__` on the clouds of a hierarchy (modelnet40.py:363-400) on the GPU;
see `Net40.logits`. -/
def Net40.GpuLogits (E : NetEnv) (Ws : ℕ) (N : Net40 (k + 2)) (clouds : List (CloudObj (Fin (k + 2) → ℝ)))
    (feats : List (List (ℕ → ℝ))) (res : Except Err (List (ℕ → ℝ))) : Prop :=
  match clouds with
  | _ :: o1 :: os =>
    match net40Init o1 feats with
    | .error e => res = .error e
    | .ok f0 => ∃ r1, N.init.GpuCall E Ws o1.c o1.c N.convRadius0 f0 r1 ∧
      match r1 with
      | .error e => res = .error e
      | .ok f1 => ∃ r2, N.block0.GpuRun E Ws o1.c o1.c N.convRadius0 0 f1 r2 ∧
        match r2 with
        | .error e => res = .error e
        | .ok f2 => ∃ r3, gpuNet40Loop E Ws o1 f2 os N.levels r3 ∧
          match r3 with
          | .error e => res = .error e
          | .ok ⟨o, f⟩ => res = .ok (List.ofFn (N.head.run40 E
              (fun (b : Fin o.c.B) ch => (globalPool .mean o.c f b ch).getD 0)))
  | _ => res = .error .indexError

/-- `mymodel.__call__` (modelnet40.py:345-400) on the GPU: the results of all runs for
padded points, sizes and padded features; see `Net40.Call`. -/
def Net40.GpuCall (E : NetEnv) (Ws : ℕ) (N : Net40 (k + 2)) (lower : String → String) (mode : String) (B V : ℕ)
    (points : List (List (Fin (k + 2) → ℝ))) (feats : List (List (ℕ → ℝ))) (sizes : List ℕ)
    (res : Except Err (List (ℕ → ℝ))) : Prop :=
  match CloudObj.newPadded [points.length] V points (some sizes) (some B) with
  | .error e => res = .error e
  | .ok o => ∃ r, GpuLevels Ws E.eps lower mode o.batchShape o N.sizes r ∧
      match r with
      | .error e => res = .error e
      | .ok os => N.GpuLogits E Ws (o :: os) feats res

/-- The loop of the small model (modelnet40_small.py:232-252) on the GPU; see
`netSmallLoop`. -/
def gpuNetSmallLoop (E : NetEnv) (Ws : ℕ) (N : NetSmall (k + 2)) : (o : CloudObj (Fin (k + 2) → ℝ)) →
    (Fin o.c.n → ℕ → ℝ) → List (CloudObj (Fin (k + 2) → ℝ)) → List (LevelSmall (k + 2)) →
    Except Err ((n : ℕ) × (Fin n → ℕ → ℝ)) → Prop
  | o, f, [o'], [], res => ∃ r, N.last.GpuCall E Ws o.c o'.c N.lastConvRadius f r ∧
      match r with
      | .error e => res = .error e
      | .ok g => res = .ok ⟨o'.c.n, g ∘ o'.c.sortedIndicesBatch⟩
  | o, f, o' :: os, l :: ls, res => ∃ r, l.conv.GpuCall E Ws o.c o'.c l.convRadius f r ∧
      match r with
      | .error e => res = .error e
      | .ok g => gpuNetSmallLoop E Ws N o' (E.bnAct l.bn2 (l.lin.apply (E.bnAct l.bn1 g))) os ls res
  | _, _, _, _, res => res = .error .indexError

/-- `mymodel.__call__` of the small model on the clouds of a hierarchy
(modelnet40_small.py:231-261) on the GPU; see `NetSmall.logits`. -/
def NetSmall.GpuLogits (E : NetEnv) (Ws : ℕ) (N : NetSmall (k + 2)) (clouds : List (CloudObj (Fin (k + 2) → ℝ)))
    (feats : List (List (ℕ → ℝ))) (res : Except Err (List (ℕ → ℝ))) : Prop :=
  match clouds with
  | o :: os =>
    match (o.flattenFeatures feats).1 with
    | .error e => res = .error e
    | .ok f0 => ∃ r, gpuNetSmallLoop E Ws N o f0 os N.levels r ∧
      match r with
      | .error e => res = .error e
      | .ok ⟨n, f⟩ => res = .ok (List.ofFn (N.head.runSmall E f))
  | _ => res = .error .indexError

/-- `mymodel.__call__` of the small model (modelnet40_small.py:205-261) on the GPU. -/
def NetSmall.GpuCall (E : NetEnv) (Ws : ℕ) (N : NetSmall (k + 2)) (lower : String → String) (mode : String)
    (B V : ℕ) (points : List (List (Fin (k + 2) → ℝ))) (feats : List (List (ℕ → ℝ))) (sizes : List ℕ)
    (res : Except Err (List (ℕ → ℝ))) : Prop :=
  match CloudObj.newPadded [points.length] V points (some sizes) (some B) with
  | .error e => res = .error e
  | .ok o => ∃ r, GpuLevels Ws E.eps lower mode o.batchShape o N.sizes r ∧
      match r with
      | .error e => res = .error e
      | .ok os => N.GpuLogits E Ws (o :: os) feats res

end
end PC
