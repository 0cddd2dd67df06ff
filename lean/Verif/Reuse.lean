import Verif.Layers

/-!
# Layers called with a precomputed neighbourhood

The argument `neighborhood` of the convolutions (MCConv.py:201, 254-261,
PointConv.py:209, 258-265): one `Neighborhood` object is passed to several
layers, which saves the search (pylib/notebooks/Introduction.ipynb, cell 32).
The object stores the densities of the first call (`get_pdf`).
-/

set_option linter.unusedVariables false

namespace PC

section
variable {K : Type*} [Field K] [LinearOrder K] [FloorRing K] {k : ℕ}

/-- A call of a convolution: the layer, the bandwidth, the features. -/
inductive ConvCall (K : Type*) (n : ℕ)
  | mc (L : MCLayer K) (bw : K) (f : Fin n → ℕ → K)
  | pc (L : PCLayer K) (bw : K) (f : Fin n → ℕ → K)

/-- The bandwidth of a call. -/
def ConvCall.bw {n : ℕ} : ConvCall K n → K
  | .mc _ b _ => b
  | .pc _ b _ => b

/-- The call without the argument `neighborhood`. -/
def ConvCall.alone {cin cout : Cloud (Fin (k + 2) → K)} (ker act : K → K) (dev : Device) (eps radius : K) :
    ConvCall K cin.n → Except Err (Fin cout.n → ℕ → K)
  | .mc L bw f => L.call ker act dev eps cin cout radius bw f
  | .pc L bw f => L.call ker act dev eps cin cout radius bw f

/-- The call with `neighborhood=h`, whose attribute `_pdf` is `s`
(MCConv.py:246-278, PointConv.py:249-281): result and new value of `_pdf`.
The number of rows is that of the output cloud; rows of `h` beyond are dropped and
missing rows are 0 (only for clouds of different sizes). -/
def ConvCall.withNbh {cin cout : Cloud (Fin (k + 2) → K)} (ker act : K → K) (dev : Device) (h : Nbh k K) (radius : K)
    (s : Option (List K)) : ConvCall K cin.n → Except Err (Fin cout.n → ℕ → K) × Option (List K)
  | .mc L bw f =>
    match h.runGet ker dev s ⟨fun _ => bw, .constant, false⟩ with
    | (.error e, s') => (.error e, s')
    | (.ok pdf, s') => (.ok (fun c o =>
        if hc : c.val < h.sample.n then L.callOn act h pdf cin.pts cout.pts radius f ⟨c.val, hc⟩ o else 0), s')
  | .pc L bw f =>
    match h.runGet ker dev s ⟨fun _ => bw, .constant, false⟩ with
    | (.error e, s') => (.error e, s')
    | (.ok pdf, s') => (.ok (fun c o =>
        if hc : c.val < h.sample.n then L.callOn act h pdf cin.pts cout.pts f ⟨c.val, hc⟩ o else 0), s')

/-- Several calls with the same `Neighborhood` object. -/
def ConvCall.reuse {cin cout : Cloud (Fin (k + 2) → K)} (ker act : K → K) (dev : Device) (h : Nbh k K) (radius : K)
    (s : Option (List K)) : List (ConvCall K cin.n) → List (Except Err (Fin cout.n → ℕ → K))
  | [] => []
  | a :: rest =>
    let r := a.withNbh (cout := cout) ker act dev h radius s
    r.1 :: ConvCall.reuse ker act dev h radius r.2 rest

end

end PC
