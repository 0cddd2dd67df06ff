import Verif.Props.Move2

/-!
# Spatial bottlenecks on batches (C167)
-/

set_option linter.unusedVariables false
set_option linter.unusedSectionVars false

namespace PC

section
variable {K : Type*} [Field K] [LinearOrder K] [IsStrictOrderedRing K] [FloorRing K] {k : ℕ}

/-- Specification: the two networks have the same layers, and their normalisations treat every shape apart (as at
inference). -/
def SameSpatial {c c' cd cd' : Cloud (Fin (k + 2) → K)} {b b' : ℕ} (s : SameElem c c' b b') (sd : SameElem cd cd' b b')
    (B : SpatialBlock c.n cd.n K) (B' : SpatialBlock c'.n cd'.n K) : Prop :=
  B'.down = B.down ∧ B'.conv = B.conv ∧ B'.up = B.up ∧ B'.proj = B.proj ∧
    (∀ f f', s.Agree f f' → s.Agree (B.bn1 f) (B'.bn1 f')) ∧ (∀ f f', sd.Agree f f' → sd.Agree (B.bn2 f) (B'.bn2 f')) ∧
    ∀ f f', sd.Agree f f' → sd.Agree (B.bn3 f) (B'.bn3 f')

theorem agree_relu {c c' : Cloud (Fin (k + 2) → K)} {b b' : ℕ} (s : SameElem c c' b b') (relu : K → K)
    {f : Fin c.n → ℕ → K} {f' : Fin c'.n → ℕ → K} (h : s.Agree f f') :
    s.Agree (fun i x => relu (f i x)) (fun i x => relu (f' i x)) := fun p => by
  funext x
  show relu (f' (s.e p) x) = relu (f p x)
  rw [h p]

theorem spatialOf_elem {c c' cd cd' : Cloud (Fin (k + 2) → K)} {b b' : ℕ} (s : SameElem c c' b b') (sd : SameElem cd cd' b b')
    (ker act relu : K → K) (radii : Fin 3 → K) (bw : K) :
    ∀ {bs : List (SpatialBlock c.n cd.n K)} {bs' : List (SpatialBlock c'.n cd'.n K)}, List.Forall₂ (SameSpatial s sd) bs bs' →
    ∀ {f : Fin c.n → ℕ → K} {f' : Fin c'.n → ℕ → K}, s.Agree f f' →
    s.Agree (spatialOf relu (fun L => L.specBetween ker act c cd (radii 0) bw) (fun L => L.specBetween ker act cd cd (radii 1) bw)
        (fun L => L.specBetween ker act cd c (radii 2) bw) bs f)
      (spatialOf relu (fun L => L.specBetween ker act c' cd' (radii 0) bw) (fun L => L.specBetween ker act cd' cd' (radii 1) bw)
        (fun L => L.specBetween ker act cd' c' (radii 2) bw) bs' f')
  | [], [], .nil, f, f', hf => hf
  | B :: bs, B' :: bs', .cons hB hbs, f, f', hf => by
    obtain ⟨e1, e2, e3, e4, n1, n2, n3⟩ := hB
    rw [spatialOf, spatialOf]
    refine spatialOf_elem s sd ker act relu radii bw hbs ?_
    rw [e1, e2, e3, e4]
    have a1 := spec_elem s sd ker act B.down (radii 0) bw (agree_relu s relu (n1 f f' hf))
    have a2 := spec_elem sd sd ker act B.conv (radii 1) bw (agree_relu sd relu (n2 _ _ a1))
    have a3 := spec_elem sd s ker act B.up (radii 2) bw (agree_relu sd relu (n3 _ _ a2))
    have a4 := skipSpec_elem s B.proj hf
    intro p
    funext x
    show _ + _ = _ + _
    exact congrArg₂ (· + ·) (congrFun (a3 p) x) (congrFun (a4 p) x)

/-- **C167, one shape in two batches, spatial bottleneck**: with neighbourhoods built for the points, the rows of a shape are
the same in two batches that both contain it and its reduced cloud, in one of them moved, with any other shapes and any order
of the points. -/
theorem C167_spatial_shape_partial (ker act relu : K → K) (dev dev' : Device) (eps : K) (c cd c' cd' : Cloud (Fin (k + 2) → K))
    (radii : Fin 3 → K) (bw : K) (hok : SpatialOk c cd radii eps) (hok' : SpatialOk c' cd' radii eps)
    (t : ℕ → Fin (k + 2) → K) {b b' : ℕ} (s : SameElem (c.moveEach t) c' b b') (sd : SameElem (cd.moveEach t) cd' b b')
    {blocks : List (SpatialBlock c.n cd.n K)} {blocks' : List (SpatialBlock c'.n cd'.n K)}
    (hb : List.Forall₂ (SameSpatial (c := c.moveEach t) (cd := cd.moveEach t) s sd) blocks blocks') (h h' : SpatialNbhs k K)
    (h0 : layerNbh dev eps c cd (radii 0) = .ok h.down) (h1 : layerNbh dev eps cd cd (radii 1) = .ok h.inner)
    (h2 : layerNbh dev eps cd c (radii 2) = .ok h.up)
    (h0' : layerNbh dev' eps c' cd' (radii 0) = .ok h'.down) (h1' : layerNbh dev' eps cd' cd' (radii 1) = .ok h'.inner)
    (h2' : layerNbh dev' eps cd' c' (radii 2) = .ok h'.up) {f : Fin c.n → ℕ → K} {f' : Fin c'.n → ℕ → K}
    (hf : SameElem.Agree (c := c.moveEach t) s f f') {out : Fin c.n → ℕ → K} {out' : Fin c'.n → ℕ → K}
    (hr : spatialNet ker act relu dev eps c cd radii bw blocks (some h) f = .ok out)
    (hr' : spatialNet ker act relu dev' eps c' cd' radii bw blocks' (some h') f' = .ok out') :
    ∀ p : {p : Fin c.n // c.batch p = b}, out' (s.e p).1 = out p.1 := by
  obtain ⟨hd, hi, hu, q0, q1, q2, e⟩ := C167_spatial_partial ker act relu dev eps c cd radii bw blocks f t h.down h.inner h.up h0 h1 h2
  have o1 := C87_explicit_partial ker act relu dev eps (c.moveEach t) (cd.moveEach t) radii bw
    ⟨hok.valid, hok.validDown, hok.radii_pos, hok.eps_pos⟩ ⟨hd, hi, hu⟩ q0 q1 q2 blocks f out (e.trans hr)
  have o2 := C87_explicit_partial ker act relu dev' eps c' cd' radii bw hok' h' h0' h1' h2' blocks' f' out' hr'
  intro p
  rw [o1, o2]
  exact spatialOf_elem s sd ker act relu radii bw hb hf p

end

/-- One spatial block without normalisation; the inner kernel is the first coordinate. -/
abbrev coordSpatial : SpatialBlock 2 2 ℚ := ⟨id, id, id, .mc mcOnes, .mc mcCoord, .mc mcOnes, none⟩

theorem coordSpatial_usable : ∀ b ∈ [coordSpatial], b.down.usable ∧ b.conv.usable ∧ b.up.usable := by
  intro b hb
  simp only [List.mem_singleton] at hb
  subst hb
  refine ⟨?_, ?_, ?_⟩ <;> simp [ConvLayer.usable, ConvLayer.kind]

theorem twoShapes_spatialOk : SpatialOk (k := 0) twoShapes twoShapes (fun _ => (1 : ℚ)) 1 :=
  ⟨by decide, by decide, fun _ => by norm_num, by norm_num⟩

/-- **C167, refuted for the default of the spatial bottleneck**: without neighbourhoods, in a batch of two shapes with sorted
batch ids, moving the second shape changes the rows of the first. -/
theorem C167_spatial_default_false :
    ¬ (∀ (ker act relu : ℚ → ℚ) (dev : Device) (c cd : Cloud (Fin 2 → ℚ)) (radii : Fin 3 → ℚ) (bw : ℚ),
      SpatialOk (k := 0) c cd radii 1 → Monotone c.batch → Monotone cd.batch →
      ∀ (blocks : List (SpatialBlock c.n cd.n ℚ)) (f : Fin c.n → ℕ → ℚ) (t : ℕ → Fin 2 → ℚ) (b : ℕ) (out out' : Fin c.n → ℕ → ℚ),
        t b = 0 → spatialNet (k := 0) ker act relu dev 1 c cd radii bw blocks none f = .ok out →
        spatialNet (k := 0) ker act relu dev 1 (c.moveEach t) (cd.moveEach t) radii bw blocks none f = .ok out' →
        ∀ i, c.batch i = b → out' i = out i) := by
  intro H
  have hok' : SpatialOk (k := 0) (twoShapes.moveEach oneMoved) (twoShapes.moveEach oneMoved) (fun _ => (1 : ℚ)) 1 :=
    ⟨twoShapes_spatialOk.valid, twoShapes_spatialOk.valid, fun _ => by norm_num, by norm_num⟩
  obtain ⟨out, ho⟩ := C87_returns (k := 0) (fun _ => (1 : ℚ)) id id 1 twoShapes twoShapes (fun _ => 1) 1
    twoShapes_spatialOk (by decide) (by decide) (by decide) (by decide) [coordSpatial] coordSpatial_usable (fun _ _ => 1)
  obtain ⟨out', ho'⟩ := C87_returns (k := 0) (fun _ => (1 : ℚ)) id id 1 (twoShapes.moveEach oneMoved) (twoShapes.moveEach oneMoved)
    (fun _ => 1) 1 hok' (by decide) (by decide) (by decide) (by decide) [coordSpatial] coordSpatial_usable (fun _ _ => 1)
  have h1 := H (fun _ => 1) id id .gpu twoShapes twoShapes (fun _ => 1) 1 twoShapes_spatialOk (fun i j h => h) (fun i j h => h)
    [coordSpatial] (fun _ _ => 1) oneMoved 0 out out' (by decide) ho ho' (0 : Fin 2) rfl
  rw [C87_default_rows (k := 0) _ _ _ _ _ _ _ _ _ twoShapes_spatialOk _ _ _ ho,
    C87_default_rows (k := 0) _ _ _ _ _ _ _ _ _ hok' _ _ _ ho'] at h1
  have h2 := congrFun h1 0
  revert h2
  decide +kernel

/-- On one shape. -/
abbrev coordSpatialOne : SpatialBlock 1 1 ℚ := ⟨id, id, id, .mc mcOnes, .mc mcCoord, .mc mcOnes, none⟩

/-- The network returns with neighbourhoods built for the points. -/
theorem spatial_explicit_returns (c : Cloud (Fin 2 → ℚ)) (hc : c.Valid) (hn : 0 < c.n) (hB : ∀ i, c.batch i < c.B)
    (blocks : List (SpatialBlock c.n c.n ℚ)) (hb : ∀ b ∈ blocks, b.down.usable ∧ b.conv.usable ∧ b.up.usable)
    (f : Fin c.n → ℕ → ℚ) :
    ∃ (h : Nbh 0 ℚ) (out : Fin c.n → ℕ → ℚ), layerNbh .gpu 1 c c 1 = .ok h ∧
      spatialNet (k := 0) (fun _ => 1) id id .gpu 1 c c (fun _ => 1) 1 blocks (some ⟨h, h, h⟩) f = .ok out := by
  have o : LayerOk c c (1 : ℚ) 1 := ⟨hc, by norm_num, by norm_num⟩
  obtain ⟨h, e⟩ := layerNbh_gpu (k := 0) 1 c c 1 o hn hB
  have g := layer_pdf_gpu (k := 0) (fun _ => (1 : ℚ)) 1 c c 1 1 o hn h e
  obtain ⟨out, ho⟩ := spatialLoop_returns (k := 0) (fun _ => (1 : ℚ)) id id .gpu ⟨h, h, h⟩ 1 (fun _ => 1) g g g c.pts c.pts blocks hb
    ⟨none, none, none⟩ f
  exact ⟨h, out, e, ho⟩

/-- The hypotheses of `C167_spatial_shape_partial` are met: the second of two shapes, moved, and the same shape alone. -/
example : ∃ (h h' : Nbh 0 ℚ) (out : Fin 2 → ℕ → ℚ) (out' : Fin 1 → ℕ → ℚ),
    spatialNet (k := 0) (fun _ => 1) id id .gpu 1 twoShapes twoShapes (fun _ => 1) 1 [coordSpatial] (some ⟨h, h, h⟩)
      (fun i _ => i.val + 1) = .ok out ∧
    spatialNet (k := 0) (fun _ => 1) id id .gpu 1 oneShape oneShape (fun _ => 1) 1 [coordSpatialOne] (some ⟨h', h', h'⟩)
      (fun _ _ => 2) = .ok out' ∧ out' 0 = out 1 := by
  obtain ⟨h, out, e, ho⟩ := spatial_explicit_returns twoShapes (by decide) (by decide) (by decide) [coordSpatial] coordSpatial_usable
    (fun i _ => i.val + 1)
  obtain ⟨h', out', e', ho'⟩ := spatial_explicit_returns oneShape (by decide) (by decide) (by decide) [coordSpatialOne]
    (by
      intro b hb
      simp only [List.mem_singleton] at hb
      subst hb
      refine ⟨?_, ?_, ?_⟩ <;> simp [ConvLayer.usable, ConvLayer.kind]) (fun _ _ => 2)
  refine ⟨h, h', out, out', ho, ho', ?_⟩
  refine C167_spatial_shape_partial (k := 0) _ _ _ .gpu .gpu 1 twoShapes twoShapes oneShape oneShape (fun _ => 1) 1
    twoShapes_spatialOk ⟨by decide, by decide, fun _ => by norm_num, by norm_num⟩ oneMoved sameShape sameShape
    (.cons ⟨rfl, rfl, rfl, rfl, fun f f' hf => hf, fun f f' hf => hf, fun f f' hf => hf⟩ .nil) ⟨h, h, h⟩ ⟨h', h', h'⟩
    e e e e' e' e' ?_ ho ho' ⟨(1 : Fin 2), rfl⟩
  rintro ⟨p, hp⟩
  obtain rfl : p = (1 : Fin 2) := Fin.ext hp
  funext x
  norm_num

end PC
