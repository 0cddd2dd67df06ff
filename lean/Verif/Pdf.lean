import Verif.Sampling

/-!
# Kernel density estimation (`custom_ops_tf.py:325-420`, `Neighborhood.py:45-49, 107-311`)

The one-dimensional kernel `exp(-x²/2)/sqrt(2π)` is a parameter `ker`, so that
statements which do not depend on it can be checked over any ordered field;
`Props/Pdf.lean` instantiates it with the Gaussian over ℝ.
-/

set_option linter.unusedVariables false

namespace PC

/-- `KDEMode` (Neighborhood.py:45-49). -/
inductive KDEMode
  | constant | numPoints | noPdf
  deriving DecidableEq, Repr

section
variable {K : Type*} [Field K] {D : ℕ}

/-- `tf.reduce_prod(kernel(diff), axis=1)` (custom_ops_tf.py:403-412): points are
divided by `bandwidth * radii` before the difference is taken. -/
def pairKernel (ker : K → K) (bw radii p q : Fin D → K) : K :=
  ∏ d, ker (p d / (bw d * radii d) - q d / (bw d * radii d))

/-- `tf.gather(points, i)` for an index that may be out of range (0 there, as on
the GPU). -/
def gatherPt {n : ℕ} (pts : Fin n → Fin D → K) (i : ℕ) : Fin D → K :=
  if h : i < n then pts ⟨i, h⟩ else 0

/-- `compute_pdf_tf` on neighbour pairs (custom_ops_tf.py:403-420): density of
each of the `n` points.  The argument `mode` is not used by this
implementation. -/
def pdfOfPairs {n m : ℕ} (ker : K → K) (pts : Fin n → Fin D → K) (bw radii : Fin D → K)
    (mode : KDEMode) (pairs : List (Fin n × Fin m)) (i : Fin n) : K :=
  ((pairs.filter (fun p => p.2.val = i.val)).map
    (fun p => pairKernel ker bw radii (pts p.1) (gatherPt pts p.2.val))).sum / ∏ d, bw d

end

section
variable {K : Type*} [Field K] [LinearOrder K] [FloorRing K] {k : ℕ}

/-- `compute_pdf(neighborhood, bandwidth, mode)` (custom_ops_tf.py:388-420):
densities of the sorted points. -/
def Nbh.pdfSorted (ker : K → K) (h : Nbh k K) (bw : Fin (k + 2) → K) (mode : KDEMode) :
    Fin h.g.c.n → K :=
  pdfOfPairs ker h.g.sortedPts bw h.radii mode h.nb.pairs

/-- Division by the size of the neighbourhood (Neighborhood.py:288-293). -/
def normalizePdf {n m : ℕ} (pairs : List (Fin n × Fin m)) (pdf : List K) : List K :=
  let normFactor : Fin m → K := fun c => ((pairs.filter (fun p => p.2 = c)).map (fun _ => (1 : K))).sum
  (pdf.zip pairs).map (fun x => x.1 / normFactor x.2.2)

/-- `_pdf` before normalisation (Neighborhood.py:275-287), one entry per
neighbour pair.  For a neighbourhood between two clouds the densities come from
a self neighbourhood of the grid's cloud (whose construction may raise). -/
def Nbh.rawPdf (ker : K → K) (dev : Device) (h : Nbh k K) (bw : Fin (k + 2) → K) (mode : KDEMode) :
    Except Err (List K) :=
  if mode = .noPdf then .ok (h.nb.pairs.map (fun _ => 1))
  else if h.equalSamples then .ok (h.nb.pairs.map (fun p => h.pdfSorted ker bw mode p.1))
  else
    match Nbh.new dev h.g h.radii none with
    | .error e => .error e
    | .ok self => .ok (h.nb.pairs.map (fun p =>
        if hp : p.1.val < self.g.c.n then self.pdfSorted ker bw mode ⟨p.1.val, hp⟩ else 0))

/-- `Neighborhood.compute_pdf` (Neighborhood.py:257-293): the value assigned to
`_pdf`. -/
def Nbh.computePdf (ker : K → K) (dev : Device) (h : Nbh k K) (bw : Fin (k + 2) → K) (mode : KDEMode)
    (normalize : Bool) : Except Err (List K) :=
  match h.rawPdf ker dev bw mode with
  | .error e => .error e
  | .ok pdf => .ok (if normalize then normalizePdf h.nb.pairs pdf else pdf)

/-- Arguments of `compute_pdf` / `get_pdf`. -/
structure PdfArgs (k : ℕ) (K : Type*) where
  bw : Fin (k + 2) → K
  mode : KDEMode
  normalize : Bool

/-- Methods of a neighbourhood that touch `_pdf`. -/
inductive PdfCall (k : ℕ) (K : Type*)
  | compute (a : PdfArgs k K)
  | get (a : PdfArgs k K)

/-- The arguments of a call. -/
def PdfCall.args {k : ℕ} {K : Type*} : PdfCall k K → PdfArgs k K
  | .compute a => a
  | .get a => a

/-- `compute_pdf` as a method: new value of `_pdf` and the exception, if any. -/
def Nbh.runCompute (ker : K → K) (dev : Device) (h : Nbh k K) (s : Option (List K)) (a : PdfArgs k K) :
    Except Err Unit × Option (List K) :=
  match h.computePdf ker dev a.bw a.mode a.normalize with
  | .error e => (.error e, s)
  | .ok l => (.ok (), some l)

/-- `get_pdf` (Neighborhood.py:295-311). -/
def Nbh.runGet (ker : K → K) (dev : Device) (h : Nbh k K) (s : Option (List K)) (a : PdfArgs k K) :
    Except Err (List K) × Option (List K) :=
  match s with
  | some l => (.ok l, s)
  | none =>
    match h.computePdf ker dev a.bw a.mode a.normalize with
    | .error e => (.error e, none)
    | .ok l => (.ok l, some l)

/-- `_pdf` after one call. -/
def Nbh.pdfStep (ker : K → K) (dev : Device) (h : Nbh k K) (s : Option (List K)) :
    PdfCall k K → Option (List K)
  | .compute a => (h.runCompute ker dev s a).2
  | .get a => (h.runGet ker dev s a).2

/-- `_pdf` after a history of calls, starting from a new object. -/
def Nbh.pdfAfter (ker : K → K) (dev : Device) (h : Nbh k K) (hist : List (PdfCall k K)) :
    Option (List K) :=
  hist.foldl (h.pdfStep ker dev) none

/-- `density_estimation` (Neighborhood.py:107-152): unless the mode is `no_pdf`
the grid and the neighbour search are computed and then `compute_pdf`, a
function of three positional parameters and `name`, is called with six
arguments, which raises `TypeError`. -/
def densityEstimation (ker : K → K) (dev : Device) (eps : K) (c : Cloud (Fin (k + 2) → K))
    (bw scaling : Fin (k + 2) → K) (mode : KDEMode) (normalize : Bool) : Except Err (List K) :=
  let raw : Except Err (List K) :=
    match mode with
    | .noPdf => .ok (List.replicate c.n 1)
    | _ =>
      match findNeighbors dev (⟨c, scaling, eps⟩ : Grid (k + 2) K)
          (Grid.sortedCloud ⟨c, scaling, eps⟩) scaling with
      | .error e => .error e
      | .ok _ => .error .typeError
  match raw with
  | .error e => .error e
  | .ok pdf => .ok (if normalize then pdf.map (fun x => x / (c.n : K)) else pdf)

/-- The body of `density_estimation_in_neighborhoods` (Neighborhood.py:185-201) for given
neighbour pairs and a given result `est` of `density_estimation` (`normalize` uses
`tf.math.segment_sum`, which needs pairs sorted by centre). -/
def densityGather (est : Except Err (List K)) {n m : ℕ} (pairs : List (Fin n × Fin m)) (mode : KDEMode)
    (normalize : Bool) : Except Err (List K) :=
  let raw : Except Err (List K) :=
    match mode with
    | .noPdf => .ok (pairs.map (fun _ => 1))
    | _ =>
      match est with
      | .error e => .error e
      | .ok pdf => .ok (pairs.map (fun p => pdf.getD p.1.val 0))
  match raw with
  | .error e => .error e
  | .ok pdf => .ok (if normalize then normalizePdf pairs pdf else pdf)

/-- `density_estimation_in_neighborhoods` (Neighborhood.py:155-201). -/
def densityInNeighborhoods (ker : K → K) (dev : Device) (eps : K) (c : Cloud (Fin (k + 2) → K)) {m : ℕ}
    (pairs : List (Fin c.n × Fin m)) (bw scaling : Fin (k + 2) → K) (mode : KDEMode)
    (normalize : Bool) : Except Err (List K) :=
  densityGather (densityEstimation ker dev eps c bw scaling mode false) pairs mode normalize

/-- `compute_pdf_inside_neighborhoods_tf` (custom_ops_tf.py:328-385): for each
pair, the sum of the kernel over the points of the same neighbourhood. -/
def pdfInside {n m : ℕ} {D : ℕ} (ker : K → K) (pts : Fin n → Fin D → K) (bw radii : Fin D → K)
    (ranges : List ℕ) (pairs : List (Fin n × Fin m)) : List K :=
  let starts := 0 :: ranges.dropLast
  let sizes := (ranges.zip starts).map (fun x => x.1 - x.2)
  let startPerNb := (starts.zip sizes).flatMap (fun x => List.replicate x.2 x.1)
  let sizePerNb := sizes.flatMap (fun s => List.replicate s s)
  (pairs.zip (startPerNb.zip sizePerNb)).map (fun x =>
    (((pairs.drop x.2.1).take x.2.2).map (fun y =>
      ∏ d, ker ((pts x.1.1 d - pts y.1 d) / (bw d * radii d)))).sum / ∏ d, bw d)

end
end PC
