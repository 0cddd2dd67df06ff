import Verif.Layers

/-!
# Residual networks (pylib/pc/layers/network_blocks.py)

Batch normalisation (`tf.keras.layers.BatchNormalization`) is library code: any
function of the feature matrix.  The block activation is any function of a
number.  Row `i` of a feature matrix belongs to row `i` of the cloud's points.
-/

namespace PC

/-- Binding of a Python call: the parameter names (all of them optional except
the first `req`), the number of positional arguments and the keywords. -/
structure PySig where
  params : List String
  req : ℕ

/-- Python raises `TypeError` for too many positional arguments, an unknown
keyword, a parameter given twice or a required parameter not given. -/
def PySig.bind (s : PySig) (pos : ℕ) (kws : List String) : Except Err Unit :=
  if s.params.length < pos then .error .typeError
  else if ¬ kws.Nodup then .error .typeError
  else if ∃ w ∈ kws, w ∉ s.params.drop pos then .error .typeError
  else if ∃ p ∈ (s.params.take s.req).drop pos, p ∉ kws then .error .typeError
  else .ok ()

/-- Parameters of the `__call__` methods without `self` (MCConv.py:196-205,
PointConv.py:204-213, KPConv.py:234-243). -/
def mcCallSig : PySig :=
  ⟨["features", "point_cloud_in", "point_cloud_out", "radius", "neighborhood", "bandwidth", "return_sorted",
    "return_padded", "name"], 4⟩
/-- `KPConv.__call__`. -/
def kpCallSig : PySig :=
  ⟨["features", "point_cloud_in", "point_cloud_out", "conv_radius", "neighborhood", "kernel_influence_dist",
    "return_sorted", "return_padded", "name"], 4⟩
/-- `Conv1x1.__init__` (Conv1x1.py:37). -/
def conv1x1Sig : PySig := ⟨["num_features_in", "num_features_out", "name"], 2⟩

/-- The layer classes a block may use (network_blocks.py:28-35). -/
inductive LayerKind
  | mc | kp | pc
  deriving DecidableEq

/-- `layer_types[layer_type.lower()]` (network_blocks.py:28-35, 75); a missing
key raises `KeyError`. -/
def layerKind (s : String) : Except Err LayerKind :=
  if s ∈ ["mcconv", "mc", "mc_conv"] then .ok .mc
  else if s ∈ ["kpconv", "kp", "kp_conv"] then .ok .kp
  else if s ∈ ["pointconv", "point_conv"] then .ok .pc
  else .error .keyError

/-- Signature of the `__call__` method per class (`PointConv` has the parameters
of `MCConv`). -/
def LayerKind.callSig : LayerKind → PySig
  | .mc => mcCallSig
  | .pc => mcCallSig
  | .kp => kpCallSig

/-- Keywords of the convolution calls in the blocks (network_blocks.py:139-144,
147-152, 271-276, 433-439, ...), followed by the user's `**kwargs`. -/
def blockCallKws (kwargs : List String) : List String :=
  ["features", "point_cloud_in", "point_cloud_out", "radius", "neighborhood"] ++ kwargs

/-- `PointResNetBottleNeck.__init__` (network_blocks.py:188-231): the calls of
`Conv1x1` for each block pass `use_bias=True`. -/
def bottleNeckNew (numBlocks : ℕ) : Except Err Unit :=
  (List.range numBlocks).foldl (fun acc _ =>
    match acc with
    | .error e => .error e
    | .ok () => conv1x1Sig.bind 2 ["use_bias"]) (.ok ())

section
variable {K : Type*} [Field K] [LinearOrder K] [FloorRing K] {k : ℕ}

/-- A convolution layer of a block. The parameters of `KPConv` play no role: the
call raises. -/
inductive ConvLayer (K : Type*)
  | mc (L : MCLayer K)
  | pc (L : PCLayer K)
  | kp

/-- The class of a layer. -/
def ConvLayer.kind : ConvLayer K → LayerKind
  | .mc _ => .mc
  | .pc _ => .pc
  | .kp => .kp

/-- A convolution call of a block with a neighbourhood object whose cached
density is `s` (network_blocks.py:139-154); result and cached density. -/
def ConvLayer.callGiven (ker act : K → K) (dev : Device) (L : ConvLayer K) (h : Nbh k K) (s : Option (List K))
    (bw radius : K) {n m : ℕ} (ptsIn : Fin n → Fin (k + 2) → K) (ptsOut : Fin m → Fin (k + 2) → K)
    (f : Fin n → ℕ → K) : Except Err (Fin m → ℕ → K) × Option (List K) :=
  match L.kind.callSig.bind 0 (blockCallKws []) with
  | .error e => (.error e, s)
  | .ok () =>
    match h.runGet ker dev s ⟨fun _ => bw, .constant, false⟩ with
    | (.error e, s') => (.error e, s')
    | (.ok pdf, s') =>
      match L with
      | .mc L => (.ok (fun c o =>
          if hc : c.val < h.sample.n then L.callOn act h pdf ptsIn ptsOut radius f ⟨c.val, hc⟩ o else 0), s')
      | .pc L => (.ok (fun c o =>
          if hc : c.val < h.sample.n then L.callOn act h pdf ptsIn ptsOut f ⟨c.val, hc⟩ o else 0), s')
      | .kp => (.ok (fun _ _ => 0), s')

/-- One block of `PointResNet` (network_blocks.py:76-91): two normalisations,
two convolutions and the skip connection (identity or 1x1 convolution given by
input size, weights and bias). -/
structure ResBlock (n : ℕ) (K : Type*) where
  bn1 : (Fin n → ℕ → K) → Fin n → ℕ → K
  bn2 : (Fin n → ℕ → K) → Fin n → ℕ → K
  conv1 : ConvLayer K
  conv2 : ConvLayer K
  proj : Option (ℕ × (ℕ → ℕ → K) × (ℕ → K))

/-- The skip connection (network_blocks.py:88-91, 156). -/
def ResBlock.skip {n : ℕ} (b : ResBlock n K) (f : Fin n → ℕ → K) : Fin n → ℕ → K :=
  match b.proj with
  | none => f
  | some (cin, w, bias) => conv1x1 cin w bias f

/-- One iteration of the loop (network_blocks.py:133-156). -/
def ResBlock.run (ker act relu : K → K) (dev : Device) {n : ℕ} (b : ResBlock n K) (h : Nbh k K)
    (bw radius : K) (pts : Fin n → Fin (k + 2) → K) (s : Option (List K)) (f : Fin n → ℕ → K) :
    Except Err ((Fin n → ℕ → K) × Option (List K)) :=
  match b.conv1.callGiven ker act dev h s bw radius pts pts (fun i x => relu (b.bn1 f i x)) with
  | (.error e, _) => .error e
  | (.ok f1, s1) =>
    match b.conv2.callGiven ker act dev h s1 bw radius pts pts (fun i x => relu (b.bn2 f1 i x)) with
    | (.error e, _) => .error e
    | (.ok f2, s2) => .ok (fun i x => f2 i x + b.skip f i x, s2)

/-- The loop over the blocks. -/
def resLoop (ker act relu : K → K) (dev : Device) {n : ℕ} (h : Nbh k K) (bw radius : K)
    (pts : Fin n → Fin (k + 2) → K) :
    List (ResBlock n K) → Option (List K) → (Fin n → ℕ → K) → Except Err (Fin n → ℕ → K)
  | [], _, f => .ok f
  | b :: bs, s, f =>
    match b.run ker act relu dev h bw radius pts s f with
    | .error e => .error e
    | .ok (f', s') => resLoop ker act relu dev h bw radius pts bs s' f'

/-- The neighbourhood `PointResNet.__call__` computes (network_blocks.py:126-132):
no sample cloud is passed. -/
def resNbh (dev : Device) (eps : K) (c : Cloud (Fin (k + 2) → K)) (radius : K) : Except Err (Nbh k K) :=
  Nbh.new dev ⟨c, fun _ => radius, eps⟩ (fun _ => radius) none

/-- `PointResNet.__call__` (network_blocks.py:95-160) up to `_format_output`,
with an optional neighbourhood (whose density is not cached yet). -/
def resNet (ker act relu : K → K) (dev : Device) (eps : K) (c : Cloud (Fin (k + 2) → K)) (radius bw : K)
    (blocks : List (ResBlock c.n K)) (nb : Option (Nbh k K)) (f : Fin c.n → ℕ → K) :
    Except Err (Fin c.n → ℕ → K) :=
  match nb with
  | some h => resLoop ker act relu dev h bw radius c.pts blocks none f
  | none =>
    match resNbh dev eps c radius with
    | .error e => .error e
    | .ok h => resLoop ker act relu dev h bw radius c.pts blocks none f

/-! ### Spatial bottleneck (network_blocks.py:300-465) -/

/-- One block of `PointResNetSpatialBottleNeck` (network_blocks.py:342-365) on a
cloud of `n` points and a downsampled cloud of `m` points. -/
structure SpatialBlock (n m : ℕ) (K : Type*) where
  bn1 : (Fin n → ℕ → K) → Fin n → ℕ → K
  bn2 : (Fin m → ℕ → K) → Fin m → ℕ → K
  bn3 : (Fin m → ℕ → K) → Fin m → ℕ → K
  down : ConvLayer K
  conv : ConvLayer K
  up : ConvLayer K
  proj : Option (ℕ × (ℕ → ℕ → K) × (ℕ → K))

/-- The skip connection (network_blocks.py:361-365, 461). -/
def SpatialBlock.skip {n m : ℕ} (b : SpatialBlock n m K) (f : Fin n → ℕ → K) : Fin n → ℕ → K :=
  match b.proj with
  | none => f
  | some (cin, w, bias) => conv1x1 cin w bias f

/-- The three neighbourhoods: down, inside, up. -/
structure SpatialNbhs (k : ℕ) (K : Type*) [Field K] [LinearOrder K] where
  down : Nbh k K
  inner : Nbh k K
  up : Nbh k K

/-- The cached densities of the three neighbourhoods.  Simplification: the
objects are distinct and new. -/
structure SpatialPdf (K : Type*) where
  down : Option (List K)
  inner : Option (List K)
  up : Option (List K)

/-- One iteration of the loop (network_blocks.py:429-461). -/
def SpatialBlock.run (ker act relu : K → K) (dev : Device) {n m : ℕ} (b : SpatialBlock n m K)
    (h : SpatialNbhs k K) (bw : K) (radii : Fin 3 → K) (pts : Fin n → Fin (k + 2) → K)
    (ptsDown : Fin m → Fin (k + 2) → K) (s : SpatialPdf K) (f : Fin n → ℕ → K) :
    Except Err ((Fin n → ℕ → K) × SpatialPdf K) :=
  match b.down.callGiven ker act dev h.down s.down bw (radii 0) pts ptsDown (fun i x => relu (b.bn1 f i x)) with
  | (.error e, _) => .error e
  | (.ok f1, s1) =>
    match b.conv.callGiven ker act dev h.inner s.inner bw (radii 1) ptsDown ptsDown
        (fun i x => relu (b.bn2 f1 i x)) with
    | (.error e, _) => .error e
    | (.ok f2, s2) =>
      match b.up.callGiven ker act dev h.up s.up bw (radii 2) ptsDown pts (fun i x => relu (b.bn3 f2 i x)) with
      | (.error e, _) => .error e
      | (.ok f3, s3) => .ok (fun i x => f3 i x + b.skip f i x, ⟨s1, s2, s3⟩)

/-- The loop over the blocks. -/
def spatialLoop (ker act relu : K → K) (dev : Device) {n m : ℕ} (h : SpatialNbhs k K) (bw : K) (radii : Fin 3 → K)
    (pts : Fin n → Fin (k + 2) → K) (ptsDown : Fin m → Fin (k + 2) → K) :
    List (SpatialBlock n m K) → SpatialPdf K → (Fin n → ℕ → K) → Except Err (Fin n → ℕ → K)
  | [], _, f => .ok f
  | b :: bs, s, f =>
    match b.run ker act relu dev h bw radii pts ptsDown s f with
    | .error e => .error e
    | .ok (f', s') => spatialLoop ker act relu dev h bw radii pts ptsDown bs s' f'

/-- The neighbourhoods `__call__` computes (network_blocks.py:409-428): the inner
one without sample cloud; the upsampling one is the transposed downsampling one
if the radii agree. -/
def spatialNbhs (dev : Device) (eps : K) (c cd : Cloud (Fin (k + 2) → K)) (radii : Fin 3 → K) :
    Except Err (SpatialNbhs k K) :=
  match Nbh.new dev ⟨c, fun _ => radii 0, eps⟩ (fun _ => radii 0) (some cd) with
  | .error e => .error e
  | .ok hd =>
    match Nbh.new dev ⟨cd, fun _ => radii 1, eps⟩ (fun _ => radii 1) none with
    | .error e => .error e
    | .ok hi =>
      match (if radii 0 = radii 2 then hd.transpose dev
        else Nbh.new dev ⟨cd, fun _ => radii 2, eps⟩ (fun _ => radii 2) (some c)) with
      | .error e => .error e
      | .ok hu => .ok ⟨hd, hi, hu⟩

/-- `PointResNetSpatialBottleNeck.__call__` (network_blocks.py:367-465) up to
`_format_output`, with optional neighbourhoods (whose densities are not cached
yet). -/
def spatialNet (ker act relu : K → K) (dev : Device) (eps : K) (c cd : Cloud (Fin (k + 2) → K)) (radii : Fin 3 → K)
    (bw : K) (blocks : List (SpatialBlock c.n cd.n K)) (nb : Option (SpatialNbhs k K)) (f : Fin c.n → ℕ → K) :
    Except Err (Fin c.n → ℕ → K) :=
  match nb with
  | some h => spatialLoop ker act relu dev h bw radii c.pts cd.pts blocks ⟨none, none, none⟩ f
  | none =>
    match spatialNbhs dev eps c cd radii with
    | .error e => .error e
    | .ok h => spatialLoop ker act relu dev h bw radii c.pts cd.pts blocks ⟨none, none, none⟩ f

end
end PC
