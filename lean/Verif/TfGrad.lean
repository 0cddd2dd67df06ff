import Verif.FloatSearch
import Verif.Layers

/-!
# Gradients of the deformable kernel point convolution as TensorFlow computes them

The layer is differentiated by TensorFlow's reverse mode: every operation has a
gradient function, applied to the gradient of its output.  Exact arithmetic on
finite values, but `0 / 0`, `x / 0` and everything computed from the results are
kept (`Flt`).  A zero divisor counts as `+0`, which is what `tf.sqrt` returns for
`0`.  The rules are TensorFlow's (`SqrtGrad`, `MulGrad`, `ReluGrad`, `ExpGrad`,
`PowGrad`, `MatMulGrad`, `GatherGrad`, `MatrixSetDiagGrad`,
`UnsortedSegmentMinGrad`), not code of the repository.
-/

namespace PC

namespace Flt
variable {K : Type*} [Field K] [LinearOrder K]

/-- `-a`. -/
def neg : Flt K → Flt K
  | fin a => fin (-a)
  | nan => nan
  | pinf => ninf
  | ninf => pinf

/-- `a + b`. -/
def add : Flt K → Flt K → Flt K
  | fin a, fin b => fin (a + b)
  | nan, _ => nan
  | _, nan => nan
  | pinf, ninf => nan
  | ninf, pinf => nan
  | pinf, _ => pinf
  | ninf, _ => ninf
  | _, pinf => pinf
  | _, ninf => ninf

/-- An infinity with the sign of `a`; not a number if `a` is zero. -/
def infOf (a : K) : Flt K := if a = 0 then nan else if 0 < a then pinf else ninf

/-- `a * b`. -/
def mul : Flt K → Flt K → Flt K
  | fin a, fin b => fin (a * b)
  | nan, _ => nan
  | _, nan => nan
  | pinf, fin b => infOf b
  | ninf, fin b => infOf (-b)
  | fin a, pinf => infOf a
  | fin a, ninf => infOf (-a)
  | pinf, pinf => pinf
  | pinf, ninf => ninf
  | ninf, pinf => ninf
  | ninf, ninf => pinf

/-- `a / b`; a zero divisor is `+0`. -/
def div : Flt K → Flt K → Flt K
  | fin a, fin b => if b = 0 then infOf a else fin (a / b)
  | nan, _ => nan
  | _, nan => nan
  | pinf, fin b => if 0 ≤ b then pinf else ninf
  | ninf, fin b => if 0 ≤ b then ninf else pinf
  | fin _, pinf => fin 0
  | fin _, ninf => fin 0
  | _, _ => nan

instance : Zero (Flt K) := ⟨fin 0⟩
instance : Add (Flt K) := ⟨add⟩

instance : AddCommMonoid (Flt K) where
  nsmul := nsmulRec
  add_assoc a b c := by
    change add (add a b) c = add a (add b c)
    cases a <;> cases b <;> cases c <;> simp [add, add_assoc]
  zero_add a := by change add (fin 0) a = a; cases a <;> simp [add]
  add_zero a := by change add a (fin 0) = a; cases a <;> simp [add]
  add_comm a b := by
    change add a b = add b a
    cases a <;> cases b <;> simp [add, add_comm]

end Flt

/-- Gradient of `y = tf.sqrt(x)`: `grad * 0.5 / y`. -/
def sqrtGrad {K : Type*} [Field K] [LinearOrder K] (y : K) (g : Flt K) : Flt K :=
  ((Flt.fin (1 / 2)).mul g).div (.fin y)

/-- Gradient of `tf.linalg.norm(x, axis=-1)`, which is
`sqrt(reduce_sum(x * conj(x)))`: the sum passes the gradient of the root on to
every square, the product to both of its factors. -/
noncomputable def normGrad {D : ℕ} (x : Fin D → ℝ) (g : Flt ℝ) (d : Fin D) : Flt ℝ :=
  let gs := sqrtGrad (norm2 x) g
  gs.mul (.fin (x d)) + gs.mul (.fin (x d))

/-- Gradient of `x ** 2`: `grad * 2 * x`. -/
def sqGrad {K : Type*} [Field K] [LinearOrder K] (x : K) (g : Flt K) : Flt K :=
  (g.mul (.fin 2)).mul (.fin x)

/-- Gradient of `_linear_weighting` and `_gaussian_weighting` with respect to
`values` (KPConv.py:28-57): `relu(1 - values / sigma)`, where `ReluGrad` passes the
gradient on where the output is positive, and `exp(-(values / (sigma / 3)) ** 2)`. -/
noncomputable def Interp.weightGrad (i : Interp) (v sigma : ℝ) (g : Flt ℝ) : Flt ℝ :=
  match i with
  | .linear => (if 0 < 1 - v / sigma then g else .fin 0).neg.div (.fin sigma)
  | .gaussian =>
    let u := v / (sigma / 3)
    (sqGrad u (g.mul (.fin (Real.exp (-u ^ 2)))).neg).div (.fin (sigma / 3))

/-- Gradient of `_kernel_offsets_weights`, `[nk * cin, nk * D]`, given the gradient
of `offset_per_center` (KPConv.py:373-376): transposed left factor of the matrix
product. -/
noncomputable def gradOffWeights {D m : ℕ} (hD : 0 < D) (wf : ℕ → ℕ → ℝ) (g : Fin m → ℕ → Fin D → Flt ℝ) (r s : ℕ) : Flt ℝ :=
  ∑ c : Fin m, (Flt.fin (wf c.val r)).mul (g c (s / D) ⟨s % D, Nat.mod_lt _ hD⟩)

/-- Gradient of `offset_per_center` given the gradient `u` of `points_dist`, the
distances between the kernel inputs and the displaced kernel points `pos`
(KPConv.py:193-195, 386-392): norm, difference, and the sum over the neighbour
pairs of each centre, which is the gradient of `tf.gather`. -/
noncomputable def offFromDist {D n m : ℕ} (pairs : List (Fin n × Fin m)) (input : Fin pairs.length → Fin D → ℝ)
    (pos : Fin m → ℕ → Fin D → ℝ) (u : Fin pairs.length → ℕ → Flt ℝ) (c : Fin m) (b : ℕ) (d : Fin D) : Flt ℝ :=
  ∑ j : Fin pairs.length, if (pairs.get j).2 = c then
    (normGrad (fun d => input j d - pos (pairs.get j).2 b d) (u j b) d).neg else 0

/-- Gradient of `points_dist` for a loss `Σ g * convolution_result`
(KPConv.py:196, 219-230): product with the weights, `basis_proj` (gradient with
respect to the basis: features times gradients of the centre; the padding and the
slice that removes it drop out), weighting. -/
noncomputable def KPLayer.distGradConv {D : ℕ} (L : KPLayer D) (sigma : ℝ) {n m nf : ℕ} (pairs : List (Fin n × Fin m))
    (input : Fin pairs.length → Fin D → ℝ) (pos : Fin m → ℕ → Fin D → ℝ) (f : Fin nf → ℕ → ℝ) (no : ℕ)
    (g : ℕ → ℕ → ℝ) (j : Fin pairs.length) (b : ℕ) : Flt ℝ :=
  L.interp.weightGrad (norm2 (fun d => input j d - pos (pairs.get j).2 b d)) sigma
    (.fin (∑ ch ∈ Finset.range L.cin, gatherD f (pairs.get j).1.val ch *
      ∑ o ∈ Finset.range no, g (pairs.get j).2.val o * L.weights (ch * L.nk + b) o))

/-- Gradient of `points_dist` for the fitting loss (KPConv.py:409-415): the minimum of a segment passes its
gradient on to the rows that attain it, in equal parts. -/
noncomputable def distGradFit {D : ℕ} (sigma : ℝ) {n m : ℕ} (pairs : List (Fin n × Fin m))
    (input : Fin pairs.length → Fin D → ℝ) (pos : Fin m → ℕ → Fin D → ℝ) (j : Fin pairs.length) (b : ℕ) : Flt ℝ :=
  let v := fun j : Fin pairs.length => norm2 (fun d => input j d - pos (pairs.get j).2 b d) / sigma
  let sel := fun j : Fin pairs.length =>
    segMin (fun j => v j ^ 2) (fun j => (pairs.get j).2.val) (pairs.get j).2.val = some (v j ^ 2)
  haveI := Classical.decPred sel
  let num := (Finset.univ.filter (fun j' => (pairs.get j').2 = (pairs.get j).2 ∧ sel j')).card
  (sqGrad (v j) (.fin (if sel j then 1 / (num : ℝ) else 0))).div (.fin sigma)

/-- Gradient of `offset_per_center` for the repulsive loss (KPConv.py:417-428): every entry of `kernel_weights` has
the gradient one, `set_diag` replaces the gradients of the diagonal by zero, then the weighting and the norm of
`kernel_points[c, j] - kernel_points[c, i]`; the differences give their gradient to both sides. -/
noncomputable def KPLayer.offGradRep {D : ℕ} (L : KPLayer D) (sigma : ℝ) {m : ℕ} (pos : Fin m → ℕ → Fin D → ℝ)
    (c : Fin m) (b : ℕ) (d : Fin D) : Flt ℝ :=
  let gd := fun (i j : ℕ) (d : Fin D) => normGrad (fun d => pos c j d - pos c i d)
    (L.interp.weightGrad (norm2 (fun d => pos c j d - pos c i d)) sigma (.fin (if i = j then 0 else 1))) d
  ∑ i ∈ Finset.range L.nk, gd i b d + ∑ j ∈ Finset.range L.nk, (gd b j d).neg

/-- Gradient of the features through the offsets, given the gradient of `offset_per_center` (KPConv.py:367-376): the
matrix product, then `basis_proj` with the undisplaced kernel weights `w`, whose gradient with respect to the features
sums basis times gradient over the neighbour pairs of a point. -/
noncomputable def featFromOff {D n m : ℕ} (nk : ℕ) (wo : ℕ → ℕ → ℝ) (pairs : List (Fin n × Fin m))
    (w : Fin pairs.length → ℕ → ℝ) (g : Fin m → ℕ → Fin D → Flt ℝ) (p ch : ℕ) : Flt ℝ :=
  ∑ j : Fin pairs.length, if (pairs.get j).1.val = p then
    ∑ b ∈ Finset.range nk, (Flt.fin (w j b)).mul
      (∑ b' ∈ Finset.range nk, ∑ d : Fin D, (g (pairs.get j).2 b' d).mul (.fin (wo (ch * nk + b) (b' * D + d.val))))
    else 0

/-- Gradient of the features through the features of the convolution itself (KPConv.py:219-230). -/
noncomputable def KPLayer.featDirect {D : ℕ} (L : KPLayer D) (sigma : ℝ) {n m : ℕ} (pairs : List (Fin n × Fin m))
    (input : Fin pairs.length → Fin D → ℝ) (pos : Fin m → ℕ → Fin D → ℝ) (no : ℕ) (g : ℕ → ℕ → ℝ) (p ch : ℕ) : ℝ :=
  ∑ j : Fin pairs.length, if (pairs.get j).1.val = p then
    ∑ b ∈ Finset.range L.nk, L.interp.weight (norm2 (fun d => input j d - pos (pairs.get j).2 b d)) sigma *
      ∑ o ∈ Finset.range no, g (pairs.get j).2.val o * L.weights (ch * L.nk + b) o
    else 0

/-- What `tape.gradient` returns: gradients of the loss `Σ g * output` with respect to the offset weights and the
features, and of `regularization_loss` with respect to the same. -/
structure KPGrads where
  conv : ℕ → ℕ → Flt ℝ
  convFeat : ℕ → ℕ → Flt ℝ
  reg : ℕ → ℕ → Flt ℝ
  regFeat : ℕ → ℕ → Flt ℝ

/-- The gradients of a deformable layer after a call with the given neighbour pairs, kernel inputs and features; a rigid
layer has no offset weights and no regularization loss (KPConv.py:141-156). -/
noncomputable def KPLayer.offGrads {D : ℕ} (hD : 0 < D) (L : KPLayer D) (sigma : ℝ) {n m nf : ℕ}
    (pairs : List (Fin n × Fin m)) (input : Fin pairs.length → Fin D → ℝ) (f : Fin nf → ℕ → ℝ) (no : ℕ)
    (g : ℕ → ℕ → ℝ) : Except Err KPGrads :=
  match L.offs with
  | none => .error .attributeError
  | some wo =>
    if L.nk ≠ L.nkp then .error .invalidArgument
    else
      let w := fun j => L.weightRow sigma (input j) (fun _ _ => 0)
      match kpProject L.cin L.nk L.nkp pairs w f with
      | .error e => .error e
      | .ok (_, wf) =>
        let pos := fun (c : Fin m) (b : ℕ) (d : Fin D) =>
          L.kp b d + ∑ x ∈ Finset.range (L.cin * L.nk), wf c.val x * wo x (b * D + d.val)
        let gc := offFromDist pairs input pos (L.distGradConv sigma pairs input pos f no g)
        let gr := fun c b d => offFromDist pairs input pos (distGradFit sigma pairs input pos) c b d +
          L.offGradRep sigma pos c b d
        .ok ⟨gradOffWeights hD wf gc,
          fun p ch => .fin (L.featDirect sigma pairs input pos no g p ch) + featFromOff L.nk wo pairs w gc p ch,
          gradOffWeights hD wf gr, featFromOff L.nk wo pairs w gr⟩

/-- The same after `KPConv.__call__` without a neighbourhood (KPConv.py:234-315). -/
noncomputable def KPLayer.callGrads {k : ℕ} (dev : Device) (eps : ℝ) (L : KPLayer (k + 2))
    (cin cout : Cloud (Fin (k + 2) → ℝ)) (radius : ℝ) (influence : Option ℝ) (f : Fin cin.n → ℕ → ℝ) (no : ℕ)
    (g : ℕ → ℕ → ℝ) : Except Err KPGrads :=
  match layerNbh dev eps cin cout radius with
  | .error e => .error e
  | .ok h => L.offGrads (Nat.succ_pos _) (kpSigma influence radius) h.originalNeighIds
      (fun j d => h.diffs cin.pts cout.pts j d / radius) f no g

/-! ### Gradients with respect to the points, rigid layers -/

/-- Gradient of the loss `Σ g * output` of a rigid layer with respect to the kernel inputs `points_diff` of the neighbour
pair `j` (KPConv.py:193-196, 348-351): the norm of the difference to each kernel point. -/
noncomputable def KPLayer.inputGrad {D : ℕ} (L : KPLayer D) (sigma : ℝ) {n m nf : ℕ} (pairs : List (Fin n × Fin m))
    (input : Fin pairs.length → Fin D → ℝ) (f : Fin nf → ℕ → ℝ) (no : ℕ) (g : ℕ → ℕ → ℝ) (j : Fin pairs.length)
    (d : Fin D) : Flt ℝ :=
  ∑ b ∈ Finset.range L.nk, normGrad (fun d => input j d - L.kp b d)
    (L.distGradConv sigma pairs input (fun _ b d => L.kp b d) f no g j b) d

/-- Gradients with respect to the coordinates of the input points (`.1`) and of the output points (`.2`) of a rigid layer
(KPConv.py:300-307): difference of gathered rows, divided by the radius. -/
noncomputable def KPLayer.pointGrads {D : ℕ} (L : KPLayer D) (sigma radius : ℝ) {n m nf : ℕ} (pairs : List (Fin n × Fin m))
    (input : Fin pairs.length → Fin D → ℝ) (f : Fin nf → ℕ → ℝ) (no : ℕ) (g : ℕ → ℕ → ℝ) :
    (ℕ → Fin D → Flt ℝ) × (ℕ → Fin D → Flt ℝ) :=
  (fun p d => ∑ j : Fin pairs.length, if (pairs.get j).1.val = p then
      (L.inputGrad sigma pairs input f no g j d).div (.fin radius) else 0,
   fun c d => ∑ j : Fin pairs.length, if (pairs.get j).2.val = c then
      ((L.inputGrad sigma pairs input f no g j d).div (.fin radius)).neg else 0)

/-- The same after `KPConv.__call__` of a rigid layer without a neighbourhood. -/
noncomputable def KPLayer.callPointGrads {k : ℕ} (dev : Device) (eps : ℝ) (L : KPLayer (k + 2))
    (cin cout : Cloud (Fin (k + 2) → ℝ)) (radius : ℝ) (influence : Option ℝ) (f : Fin cin.n → ℕ → ℝ) (no : ℕ)
    (g : ℕ → ℕ → ℝ) : Except Err ((ℕ → Fin (k + 2) → Flt ℝ) × (ℕ → Fin (k + 2) → Flt ℝ)) :=
  match layerNbh dev eps cin cout radius with
  | .error e => .error e
  | .ok h => .ok (L.pointGrads (kpSigma influence radius) radius h.originalNeighIds
      (fun j d => h.diffs cin.pts cout.pts j d / radius) f no g)

/-! ### Gradients with respect to the convolution weights -/

/-- Gradient of the loss `Σ g * output` with respect to the entries of the weights (KPConv.py:227-230): the gradient function of
`tf.matmul` multiplies the transposed first factor with `g`. -/
noncomputable def KPLayer.convWeightGrad {D : ℕ} (L : KPLayer D) (sigma : ℝ) {n m nf : ℕ} (pairs : List (Fin n × Fin m))
    (input : Fin pairs.length → Fin D → ℝ) (f : Fin nf → ℕ → ℝ) (g : ℕ → ℕ → ℝ) : Except Err (ℕ → ℕ → ℝ) :=
  match L.offsets sigma pairs input f with
  | .error e => .error e
  | .ok off =>
    match kpProject L.cin L.nk L.nkp pairs (fun j => L.weightRow sigma (input j) (off j)) f with
    | .error e => .error e
    | .ok (rows, wf) => .ok (fun x o => ∑ r ∈ Finset.range rows, wf r x * g r o)

end PC
