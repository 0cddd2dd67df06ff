import Verif.Props.Blocks

/-!
# Property C87 (spatial bottleneck networks align features with points) and the
spatial part of C79
-/

set_option linter.unusedVariables false
set_option linter.unusedSectionVars false

namespace PC

section
variable {K : Type*} [Field K] [LinearOrder K] [IsStrictOrderedRing K] [FloorRing K] {k : ℕ}

/-- Specification: a spatial bottleneck network whose three convolutions are
given by `down`, `inner` and `up`. -/
def spatialOf {n m : ℕ} (relu : K → K) (down : ConvLayer K → (Fin n → ℕ → K) → Fin m → ℕ → K)
    (inner : ConvLayer K → (Fin m → ℕ → K) → Fin m → ℕ → K)
    (up : ConvLayer K → (Fin m → ℕ → K) → Fin n → ℕ → K) :
    List (SpatialBlock n m K) → (Fin n → ℕ → K) → Fin n → ℕ → K
  | [], f => f
  | b :: bs, f => spatialOf relu down inner up bs (fun i x =>
      up b.up (fun i x => relu (b.bn3 (inner b.conv (fun i x => relu (b.bn2
        (down b.down (fun i x => relu (b.bn1 f i x))) i x))) i x)) i x + skipSpec b.proj f i x)

theorem SpatialBlock.skip_eq {n m : ℕ} (b : SpatialBlock n m K) (f : Fin n → ℕ → K) (i : Fin n) (x : ℕ) :
    b.skip f i x = skipSpec b.proj f i x := by
  unfold SpatialBlock.skip skipSpec
  cases b.proj <;> rfl

/-- The result of earlier calls is cached or not. -/
def CachedOk (ker : K → K) (dev : Device) (h : Nbh k K) (bw : K) (s : Option (List K)) : Prop :=
  s = none ∨ ∃ l, s = some l ∧ (h.runGet ker dev none ⟨fun _ => bw, .constant, false⟩).1 = .ok l

theorem spatialLoop_eq {ker act relu : K → K} {dev : Device} {c cd : Cloud (Fin (k + 2) → K)} {radii : Fin 3 → K}
    {bw : K} {ctr : Fin cd.n → Fin cd.n} {h : SpatialNbhs k K}
    (hd : BlockNbh ker dev c cd (radii 0) bw id h.down)
    (hi : BlockNbh ker dev cd cd (radii 1) bw ctr h.inner)
    (hu : BlockNbh ker dev cd c (radii 2) bw id h.up) :
    ∀ (blocks : List (SpatialBlock c.n cd.n K)) (s : SpatialPdf K), CachedOk ker dev h.down bw s.down →
      CachedOk ker dev h.inner bw s.inner → CachedOk ker dev h.up bw s.up →
    ∀ (f out : Fin c.n → ℕ → K), spatialLoop ker act relu dev h bw radii c.pts cd.pts blocks s f = .ok out →
      out = spatialOf relu (fun L => L.specBetween ker act c cd (radii 0) bw)
        (fun L f i o => L.mix ker act cd cd (radii 1) bw (ctr i) i f o)
        (fun L => L.specBetween ker act cd c (radii 2) bw) blocks f
  | [], s, _, _, _, f, out, hr => by
    unfold spatialLoop at hr
    simp only [Except.ok.injEq] at hr
    rw [← hr]; rfl
  | b :: bs, s, s1ok, s2ok, s3ok, f, out, hr => by
    unfold spatialLoop at hr
    split at hr
    · simp at hr
    · rename_i f' s' hrun
      unfold SpatialBlock.run at hrun
      split at hrun
      · simp at hrun
      · rename_i f1 s1 h1
        obtain ⟨a1, a2⟩ := callGiven_eq hd b.down s.down s1 s1ok _ f1 h1
        split at hrun
        · simp at hrun
        · rename_i f2 s2 h2
          obtain ⟨b1, b2⟩ := callGiven_eq hi b.conv s.inner s2 s2ok _ f2 h2
          split at hrun
          · simp at hrun
          · rename_i f3 s3 h3
            obtain ⟨c1, c2⟩ := callGiven_eq hu b.up s.up s3 s3ok _ f3 h3
            simp only [Except.ok.injEq, Prod.mk.injEq] at hrun
            obtain ⟨hf', hs'⟩ := hrun
            subst hs'
            have := spatialLoop_eq hd hi hu bs ⟨s1, s2, s3⟩ (Or.inr a2) (Or.inr b2) (Or.inr c2) f' out hr
            rw [this]
            show spatialOf relu _ _ _ bs f' = spatialOf relu _ _ _ bs _
            refine congrArg (spatialOf relu _ _ _ bs) ?_
            rw [← hf']
            funext i x
            rw [c1 i x]
            have e1 : f1 = b.down.specBetween ker act c cd (radii 0) bw (fun i x => relu (b.bn1 f i x)) :=
              funext (fun i => funext (fun o => by rw [a1 i o, id, ConvLayer.mix_self]))
            have e2 : f2 = fun i o => b.conv.mix ker act cd cd (radii 1) bw (ctr i) i
                (fun i x => relu (b.bn2 f1 i x)) o :=
              funext (fun i => funext (fun o => b1 i o))
            rw [id, ConvLayer.mix_self, e2, e1, b.skip_eq]

/-- Assumptions on the two clouds and the radii. -/
structure SpatialOk (c cd : Cloud (Fin (k + 2) → K)) (radii : Fin 3 → K) (eps : K) : Prop where
  valid : c.Valid
  validDown : cd.Valid
  radii_pos : ∀ i, 0 < radii i
  eps_pos : 0 < eps

/-- The neighbourhoods computed by the network, taken apart. -/
theorem spatialNbhs_eq {dev : Device} {eps : K} {c cd : Cloud (Fin (k + 2) → K)} {radii : Fin 3 → K}
    {h : SpatialNbhs k K} (hh : spatialNbhs dev eps c cd radii = .ok h) :
    layerNbh dev eps c cd (radii 0) = .ok h.down ∧ resNbh dev eps cd (radii 1) = .ok h.inner ∧
      layerNbh dev eps cd c (radii 2) = .ok h.up := by
  unfold spatialNbhs at hh
  split at hh
  · simp at hh
  · rename_i hd h1
    split at hh
    · simp at hh
    · rename_i hi h2
      split at hh
      · simp at hh
      · rename_i hu h3
        simp only [Except.ok.injEq] at hh
        subst hh
        refine ⟨h1, h2, ?_⟩
        split at h3
        · rename_i heq
          obtain ⟨nb, rfl, _⟩ := layerNbh_eq (eps := eps) (cin := c) (cout := cd) h1
          unfold Nbh.transpose at h3
          rw [if_neg (by simp)] at h3
          rw [← heq]
          exact h3
        · exact h3

/-- **C87, what the network computes without given neighbourhoods**: the down-
and upsampling convolutions are aligned; row `i` of the inner convolution uses
the neighbours of the point on place `i` of the sorted order of the downsampled
cloud, but the coordinates of point `i`. -/
theorem C87_default_rows (ker act relu : K → K) (dev : Device) (eps : K) (c cd : Cloud (Fin (k + 2) → K))
    (radii : Fin 3 → K) (bw : K) (hok : SpatialOk c cd radii eps) (blocks : List (SpatialBlock c.n cd.n K))
    (f out : Fin c.n → ℕ → K)
    (h : spatialNet ker act relu dev eps c cd radii bw blocks none f = .ok out) :
    out = spatialOf relu (fun L => L.specBetween ker act c cd (radii 0) bw)
      (fun L f i o => L.mix ker act cd cd (radii 1) bw
        ((⟨cd, fun _ => radii 1, eps⟩ : Grid (k + 2) K).perm i) i f o)
      (fun L => L.specBetween ker act cd c (radii 2) bw) blocks f := by
  unfold spatialNet at h
  dsimp only at h
  split at h
  · simp at h
  · rename_i nh hnh
    obtain ⟨h1, h2, h3⟩ := spatialNbhs_eq hnh
    exact spatialLoop_eq (explicit_blockNbh ⟨hok.valid, hok.radii_pos 0, hok.eps_pos⟩ h1)
      (default_blockNbh ⟨hok.validDown, hok.radii_pos 1, hok.eps_pos⟩ h2)
      (explicit_blockNbh ⟨hok.validDown, hok.radii_pos 2, hok.eps_pos⟩ h3) blocks _ (Or.inl rfl) (Or.inl rfl)
      (Or.inl rfl) f out h

/-- **C87, partial: sorted downsampled clouds.** Missing: downsampled clouds that
are not stored in the grid's order. -/
theorem C87_sorted_partial (ker act relu : K → K) (dev : Device) (eps : K) (c cd : Cloud (Fin (k + 2) → K))
    (radii : Fin 3 → K) (bw : K) (hok : SpatialOk c cd radii eps)
    (hperm : ∀ i, (⟨cd, fun _ => radii 1, eps⟩ : Grid (k + 2) K).perm i = i)
    (blocks : List (SpatialBlock c.n cd.n K)) (f out : Fin c.n → ℕ → K)
    (h : spatialNet ker act relu dev eps c cd radii bw blocks none f = .ok out) :
    out = spatialOf relu (fun L => L.specBetween ker act c cd (radii 0) bw)
      (fun L => L.specBetween ker act cd cd (radii 1) bw)
      (fun L => L.specBetween ker act cd c (radii 2) bw) blocks f := by
  rw [C87_default_rows ker act relu dev eps c cd radii bw hok blocks f out h]
  congr 1
  funext L f i o
  rw [hperm, ConvLayer.mix_self]

/-- **C87, partial: given neighbourhoods.** With three neighbourhoods built with
explicit sample clouds every convolution is aligned. -/
theorem C87_explicit_partial (ker act relu : K → K) (dev : Device) (eps : K) (c cd : Cloud (Fin (k + 2) → K))
    (radii : Fin 3 → K) (bw : K) (hok : SpatialOk c cd radii eps) (nh : SpatialNbhs k K)
    (h1 : layerNbh dev eps c cd (radii 0) = .ok nh.down) (h2 : layerNbh dev eps cd cd (radii 1) = .ok nh.inner)
    (h3 : layerNbh dev eps cd c (radii 2) = .ok nh.up)
    (blocks : List (SpatialBlock c.n cd.n K)) (f out : Fin c.n → ℕ → K)
    (h : spatialNet ker act relu dev eps c cd radii bw blocks (some nh) f = .ok out) :
    out = spatialOf relu (fun L => L.specBetween ker act c cd (radii 0) bw)
      (fun L => L.specBetween ker act cd cd (radii 1) bw)
      (fun L => L.specBetween ker act cd c (radii 2) bw) blocks f := by
  unfold spatialNet at h
  dsimp only at h
  rw [spatialLoop_eq (explicit_blockNbh ⟨hok.valid, hok.radii_pos 0, hok.eps_pos⟩ h1)
      (explicit_blockNbh ⟨hok.validDown, hok.radii_pos 1, hok.eps_pos⟩ h2)
      (explicit_blockNbh ⟨hok.validDown, hok.radii_pos 2, hok.eps_pos⟩ h3) blocks _ (Or.inl rfl) (Or.inl rfl)
      (Or.inl rfl) f out h]
  congr 1

/-- **C87, reuse of the downsampling neighbourhood** for equal radii gives the
neighbourhood a fresh computation gives, on either device, and raises exactly
when that raises. -/
theorem C87_transposed_reuse (dev : Device) (eps r : K) (c cd : Cloud (Fin (k + 2) → K)) (hd : Nbh k K)
    (h : layerNbh dev eps c cd r = .ok hd) : hd.transpose dev = layerNbh dev eps cd c r := by
  obtain ⟨nb, rfl, _⟩ := layerNbh_eq h
  unfold Nbh.transpose
  rw [if_neg (by simp)]
  rfl

theorem spatialLoop_returns (ker act relu : K → K) (dev : Device) (h : SpatialNbhs k K) (bw : K) (radii : Fin 3 → K)
    (hd : ∃ l, (h.down.runGet ker dev none ⟨fun _ => bw, .constant, false⟩).1 = .ok l)
    (hi : ∃ l, (h.inner.runGet ker dev none ⟨fun _ => bw, .constant, false⟩).1 = .ok l)
    (hu : ∃ l, (h.up.runGet ker dev none ⟨fun _ => bw, .constant, false⟩).1 = .ok l)
    {n m : ℕ} (pts : Fin n → Fin (k + 2) → K) (ptsDown : Fin m → Fin (k + 2) → K) :
    ∀ (blocks : List (SpatialBlock n m K)), (∀ b ∈ blocks, b.down.usable ∧ b.conv.usable ∧ b.up.usable) →
    ∀ (s : SpatialPdf K) (f : Fin n → ℕ → K),
    ∃ out, spatialLoop ker act relu dev h bw radii pts ptsDown blocks s f = .ok out
  | [], _, s, f => ⟨f, rfl⟩
  | b :: bs, hb, s, f => by
    obtain ⟨hb1, hb2, hb3⟩ := hb b (by simp)
    unfold spatialLoop SpatialBlock.run
    obtain ⟨f1, s1, h1⟩ := callGiven_returns ker act dev b.down hb1 h.down s.down bw (radii 0) hd pts ptsDown
      (fun i x => relu (b.bn1 f i x))
    rw [h1]
    dsimp only
    obtain ⟨f2, s2, h2⟩ := callGiven_returns ker act dev b.conv hb2 h.inner s.inner bw (radii 1) hi ptsDown ptsDown
      (fun i x => relu (b.bn2 f1 i x))
    rw [h2]
    dsimp only
    obtain ⟨f3, s3, h3⟩ := callGiven_returns ker act dev b.up hb3 h.up s.up bw (radii 2) hu ptsDown pts
      (fun i x => relu (b.bn3 f2 i x))
    rw [h3]
    dsimp only
    exact spatialLoop_returns ker act relu dev h bw radii hd hi hu pts ptsDown bs (fun b hb' => hb b (by simp [hb'])) _ _

theorem resNbh_gpu (ker : K → K) (eps : K) (c : Cloud (Fin (k + 2) → K)) (radius bw : K)
    (hok : LayerOk c c radius eps) (hn : 0 < c.n) :
    ∃ h, resNbh .gpu eps c radius = .ok h ∧
      ∃ l, (h.runGet ker .gpu none ⟨fun _ => bw, .constant, false⟩).1 = .ok l := by
  obtain ⟨r, hr⟩ := findNeighbors_gpu_returns (⟨c, fun _ => radius, eps⟩ : Grid (k + 2) K)
    (Grid.sortedCloud ⟨c, fun _ => radius, eps⟩)
    (fun _ => radius) hok.valid (fun _ => hok.radius_pos) hok.eps_pos hn (fun i => hok.valid _)
  refine ⟨⟨⟨c, fun _ => radius, eps⟩, fun _ => radius, _, true, r⟩, ?_, ?_⟩
  · unfold resNbh Nbh.new
    simp only
    rw [hr]
  · unfold Nbh.runGet Nbh.computePdf Nbh.rawPdf
    simp only [reduceCtorEq, if_false, if_true]
    exact ⟨_, rfl⟩

/-- **C87, the network returns on the GPU** for non-empty clouds with batch ids
below each other's batch size and any number of blocks. -/
theorem C87_returns (ker act relu : K → K) (eps : K) (c cd : Cloud (Fin (k + 2) → K))
    (radii : Fin 3 → K) (bw : K) (hok : SpatialOk c cd radii eps) (hn : 0 < c.n) (hm : 0 < cd.n)
    (hB : ∀ i, cd.batch i < c.B) (hB' : ∀ i, c.batch i < cd.B) (blocks : List (SpatialBlock c.n cd.n K))
    (hbl : ∀ b ∈ blocks, b.down.usable ∧ b.conv.usable ∧ b.up.usable) (f : Fin c.n → ℕ → K) :
    ∃ out, spatialNet ker act relu .gpu eps c cd radii bw blocks none f = .ok out := by
  have o1 : LayerOk c cd (radii 0) eps := ⟨hok.valid, hok.radii_pos 0, hok.eps_pos⟩
  have o2 : LayerOk cd cd (radii 1) eps := ⟨hok.validDown, hok.radii_pos 1, hok.eps_pos⟩
  have o3 : LayerOk cd c (radii 2) eps := ⟨hok.validDown, hok.radii_pos 2, hok.eps_pos⟩
  obtain ⟨hd, e1⟩ := layerNbh_gpu eps c cd (radii 0) o1 hm hB
  obtain ⟨hi, e2, g2⟩ := resNbh_gpu ker eps cd (radii 1) bw o2 hm
  obtain ⟨hu, e3⟩ := layerNbh_gpu eps cd c (radii 2) o3 hn hB'
  have g1 := layer_pdf_gpu ker eps c cd (radii 0) bw o1 hn hd e1
  have g3 := layer_pdf_gpu ker eps cd c (radii 2) bw o3 hm hu e3
  have hnb : spatialNbhs .gpu eps c cd radii = .ok ⟨hd, hi, hu⟩ := by
    unfold spatialNbhs
    rw [show Nbh.new .gpu (⟨c, fun _ => radii 0, eps⟩ : Grid (k + 2) K) (fun _ => radii 0) (some cd) = .ok hd from e1]
    dsimp only
    rw [show Nbh.new .gpu (⟨cd, fun _ => radii 1, eps⟩ : Grid (k + 2) K) (fun _ => radii 1) none = .ok hi from e2]
    dsimp only
    split
    · rename_i heq
      split at heq
      · rename_i h02
        rw [C87_transposed_reuse .gpu eps (radii 0) c cd hd e1, h02, e3] at heq
        cases heq
      · rw [show Nbh.new .gpu (⟨cd, fun _ => radii 2, eps⟩ : Grid (k + 2) K) (fun _ => radii 2) (some c) = .ok hu
          from e3] at heq
        cases heq
    · rename_i hu' heq
      split at heq
      · rename_i h02
        rw [C87_transposed_reuse .gpu eps (radii 0) c cd hd e1, h02, e3] at heq
        cases heq
        rfl
      · rw [show Nbh.new .gpu (⟨cd, fun _ => radii 2, eps⟩ : Grid (k + 2) K) (fun _ => radii 2) (some c) = .ok hu
          from e3] at heq
        cases heq
        rfl
  unfold spatialNet
  dsimp only
  rw [hnb]
  exact spatialLoop_returns _ _ _ _ _ _ _ g1 g2 g3 _ _ _ hbl _ _

end

/-- One spatial block with constant kernels. -/
abbrev onesSpatial : SpatialBlock 3 3 ℚ := ⟨id, id, id, .mc mcOnes, .mc mcOnes, .mc mcOnes, none⟩

/-- Non-vacuity: the hypotheses of the theorems hold for three isolated points
and the same cloud as downsampled cloud. -/
theorem threeFar_spatialOk : SpatialOk (k := 0) threeFar threeFar (fun _ => (1 : ℚ)) 1 :=
  ⟨by decide, by decide, fun _ => by norm_num, by norm_num⟩

/-- **C87, refuted**: one block with constant kernels. -/
theorem C87_aligned_false :
    ¬ (∀ (ker act relu : ℚ → ℚ) (dev : Device) (c cd : Cloud (Fin 2 → ℚ)) (radii : Fin 3 → ℚ) (bw : ℚ),
      SpatialOk (k := 0) c cd radii 1 → ∀ (blocks : List (SpatialBlock c.n cd.n ℚ)) (f out : Fin c.n → ℕ → ℚ),
        spatialNet (k := 0) ker act relu dev 1 c cd radii bw blocks none f = .ok out →
        out = spatialOf relu (fun L => L.specBetween ker act c cd (radii 0) bw)
          (fun L => L.specBetween ker act cd cd (radii 1) bw)
          (fun L => L.specBetween ker act cd c (radii 2) bw) blocks f) := by
  intro H
  obtain ⟨out, ho⟩ := C87_returns (k := 0) (fun _ => (1 : ℚ)) id id 1 threeFar threeFar (fun _ => 1) 1
    threeFar_spatialOk (by decide) (by decide) (by decide) (by decide) [onesSpatial]
    (by
      intro b hb
      simp only [List.mem_singleton] at hb
      subst hb
      refine ⟨?_, ?_, ?_⟩ <;> simp [ConvLayer.usable, ConvLayer.kind]) (fun i _ => i.val)
  have h1 := H _ _ _ _ _ _ _ _ threeFar_spatialOk _ _ _ ho
  rw [C87_default_rows (k := 0) _ _ _ _ _ _ _ _ _ threeFar_spatialOk _ _ _ ho] at h1
  have h2 := congrFun (congrFun h1 (0 : Fin 3)) 0
  revert h2
  decide +kernel

/-- **C79, spatial bottleneck networks with `KPConv`** never return. -/
theorem C79_kpconv_spatial {K : Type*} [Field K] [LinearOrder K] [FloorRing K] {k : ℕ} (ker act relu : K → K)
    (dev : Device) (eps : K) (c cd : Cloud (Fin (k + 2) → K)) (radii : Fin 3 → K) (bw : K)
    (b : SpatialBlock c.n cd.n K) (hb : b.down = .kp)
    (bs : List (SpatialBlock c.n cd.n K)) (nb : Option (SpatialNbhs k K)) (f : Fin c.n → ℕ → K) :
    ∃ e, spatialNet ker act relu dev eps c cd radii bw (b :: bs) nb f = .error e := by
  have hloop : ∀ h : SpatialNbhs k K, spatialLoop ker act relu dev h bw radii c.pts cd.pts (b :: bs)
      ⟨none, none, none⟩ f = .error .typeError := by
    intro h
    unfold spatialLoop SpatialBlock.run
    have : b.down.callGiven ker act dev h.down none bw (radii 0) c.pts cd.pts (fun i x => relu (b.bn1 f i x)) =
        (.error .typeError, none) := by
      rw [hb]
      unfold ConvLayer.callGiven
      rw [show (ConvLayer.kp : ConvLayer K).kind.callSig.bind 0 (blockCallKws []) = .error .typeError from
        (C79_kpconv_raises "kp" (by simp) []).2]
    dsimp only
    rw [this]
  unfold spatialNet
  cases nb with
  | some h => exact ⟨_, hloop h⟩
  | none =>
    dsimp only
    cases hr : spatialNbhs dev eps c cd radii with
    | error e => exact ⟨e, rfl⟩
    | ok h => exact ⟨_, hloop h⟩

end PC
