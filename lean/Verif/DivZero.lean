import Verif.Layers

/-!
# The layers with an explicit division

`MCLayer.call` and `PCLayer.call` of `Layers.lean` divide in a field, where
`x / 0 = 0`.  TensorFlow divides floats, where `x / 0` is an infinity or NaN.
The definitions here are the same code with the division as a parameter `div`,
so that "the result does not depend on what a division by zero returns" can be
stated (`Props/DivZero.lean`).
-/

set_option linter.unusedVariables false

namespace PC

section
variable {K : Type*} [Field K]

/-- `MCConv._monte_carlo_conv` (MCConv.py:137-194) with the division of
MCConv.py:171 given. -/
def MCLayer.convWith (div : K → K → K) (act : K → K) (L : MCLayer K) (D : ℕ) {n m nf : ℕ}
    (pairs : List (Fin n × Fin m)) (input : Fin pairs.length → ℕ → K) (pdf : Fin pairs.length → K)
    (f : Fin nf → ℕ → K) (c : Fin m) (o : ℕ) : K :=
  let wf := basisProj pairs (fun j col =>
    div (mlpEval act (col / L.hid) D L.layers (input j) (col % L.hid)) (pdf j)) f
  let t := fun (mi x : ℕ) => wf c (x / L.hid) (mi * L.hid + x % L.hid)
  let r := fun (mi o' : ℕ) => ∑ x ∈ Finset.range (L.cin * L.hid), t mi x * L.final mi x o'
  r (o / (L.cout / L.mlps)) (o % (L.cout / L.mlps))

variable [LinearOrder K]

/-- `PointConv._point_conv` (PointConv.py:143-202) with the divisions of
PointConv.py:179 and 188 given. -/
def PCLayer.convWith (div : K → K → K) (act : K → K) (L : PCLayer K) (D : ℕ) {n m nf : ℕ}
    (pairs : List (Fin n × Fin m)) (input : Fin pairs.length → ℕ → K) (pdf : Fin pairs.length → K)
    (f : Fin nf → ℕ → K) (c : Fin m) (o : ℕ) : K :=
  let maxPdf := fun s => segMax pdf (fun j => (pairs.get j).2.val) s
  let basis := fun (j : Fin pairs.length) (b : ℕ) =>
    div (act (∑ i ∈ Finset.range D, input j i * L.axis i b + L.bias b))
      (L.pdfTransform (div (pdf j) ((maxPdf (pairs.get j).2.val).getD 0)))
  let wf := basisProj pairs basis f
  ∑ x ∈ Finset.range (L.cin * L.hid), wf c (x / L.hid) (x % L.hid) * L.weights x o

variable [FloorRing K] {k : ℕ}

/-- `MCConv.__call__` without a neighbourhood (MCConv.py:196-278) with the
divisions of MCConv.py:171 and 268 given.  The divisions inside the density
estimate have the constant divisors `bw * radius` and `bw ^ D`
(compute_pdf, Neighborhood.py) and stay as they are. -/
def MCLayer.callWith (div : K → K → K) (ker act : K → K) (dev : Device) (eps : K) (L : MCLayer K)
    (cin cout : Cloud (Fin (k + 2) → K)) (radius bw : K) (f : Fin cin.n → ℕ → K) :
    Except Err (Fin cout.n → ℕ → K) :=
  match layerNbh dev eps cin cout radius with
  | .error e => .error e
  | .ok h =>
    match (h.runGet ker dev none ⟨fun _ => bw, .constant, false⟩).1 with
    | .error e => .error e
    | .ok pdf => .ok (fun c o =>
        if hc : c.val < h.sample.n then
          L.convWith div act (k + 2) h.originalNeighIds
            (fun j => rowOf (fun d => div (h.diffs cin.pts cout.pts j d) radius))
            (fun j => pdf.getD j.val 0) f ⟨c.val, hc⟩ o
        else 0)

/-- `PointConv.__call__` without a neighbourhood (PointConv.py:204-281) with
the divisions of PointConv.py:179 and 188 given. -/
def PCLayer.callWith (div : K → K → K) (ker act : K → K) (dev : Device) (eps : K) (L : PCLayer K)
    (cin cout : Cloud (Fin (k + 2) → K)) (radius bw : K) (f : Fin cin.n → ℕ → K) :
    Except Err (Fin cout.n → ℕ → K) :=
  match layerNbh dev eps cin cout radius with
  | .error e => .error e
  | .ok h =>
    match (h.runGet ker dev none ⟨fun _ => bw, .constant, false⟩).1 with
    | .error e => .error e
    | .ok pdf => .ok (fun c o =>
        if hc : c.val < h.sample.n then
          L.convWith div act (k + 2) h.originalNeighIds
            (fun j => rowOf (fun d => h.diffs cin.pts cout.pts j d))
            (fun j => pdf.getD j.val 0) f ⟨c.val, hc⟩ o
        else 0)

end

end PC
