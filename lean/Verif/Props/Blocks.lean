import Verif.Blocks
import Verif.Props.Layers4

/-!
# Properties C52 (residual networks align features with points), C79 (residual
networks for every layer type)
-/

set_option linter.unusedVariables false
set_option linter.unusedSectionVars false

namespace PC

section
variable {K : Type*} [Field K] [LinearOrder K] [IsStrictOrderedRing K] [FloorRing K] {k : ℕ}

/-- `MCConv` over an arbitrary set `S` of neighbours with centre coordinates `x`. -/
def mcMix (ker act : K → K) (L : MCLayer K) (c : Cloud (Fin (k + 2) → K)) (radius bw : K)
    (S : Finset (Fin c.n)) (x : Fin (k + 2) → K) (f : Fin c.n → ℕ → K) (o : ℕ) : K :=
  ∑ p ∈ S, ∑ ch ∈ Finset.range L.cin, ∑ hh ∈ Finset.range L.hid,
    f p ch * (mlpEval act (o / (L.cout / L.mlps)) (k + 2) L.layers
        (rowOf (fun d => (c.pts p d - x d) / radius)) hh /
          density ker c (fun _ => bw) (fun _ => radius) p) *
      L.final (o / (L.cout / L.mlps)) (ch * L.hid + hh) (o % (L.cout / L.mlps))

/-- `PointConv` over an arbitrary set `S` of neighbours with centre coordinates
`x`. -/
def pcMix (ker act : K → K) (L : PCLayer K) (c : Cloud (Fin (k + 2) → K)) (radius bw : K)
    (S : Finset (Fin c.n)) (x : Fin (k + 2) → K) (f : Fin c.n → ℕ → K) (o : ℕ) : K :=
  ∑ p ∈ S, ∑ ch ∈ Finset.range L.cin, ∑ hh ∈ Finset.range L.hid,
    f p ch * (act (∑ i ∈ Finset.range (k + 2),
        rowOf (fun d => c.pts p d - x d) i * L.axis i hh + L.bias hh) /
      densityNet L.pw1 L.pb1 L.pw2 L.pb2 (density ker c (fun _ => bw) (fun _ => radius) p /
        maxOver S (density ker c (fun _ => bw) (fun _ => radius)))) *
      L.weights (ch * L.hid + hh) o

/-- A convolution of a block at row `i`, where the neighbours are those of point
`a` and the coordinates of the centre those of point `i`. -/
def ConvLayer.mix (ker act : K → K) (L : ConvLayer K) (cin cout : Cloud (Fin (k + 2) → K)) (radius bw : K)
    (a i : Fin cout.n) (f : Fin cin.n → ℕ → K) (o : ℕ) : K :=
  match L with
  | .mc L => mcMix ker act L cin radius bw (nbrs cin cout radius a) (cout.pts i) f o
  | .pc L => pcMix ker act L cin radius bw (nbrs cin cout radius a) (cout.pts i) f o
  | .kp => 0

/-- Specification of a convolution between two clouds: row `i` is the
convolution at point `i` of the output cloud (C41). -/
def ConvLayer.specBetween (ker act : K → K) (L : ConvLayer K) (cin cout : Cloud (Fin (k + 2) → K))
    (radius bw : K) (f : Fin cin.n → ℕ → K) (i : Fin cout.n) (o : ℕ) : K :=
  match L with
  | .mc L => mcSpec ker act L cin cout radius bw f i o
  | .pc L => pcSpec ker act L cin cout radius bw f i o
  | .kp => 0

/-- Specification of a convolution on one cloud. -/
abbrev ConvLayer.spec (ker act : K → K) (L : ConvLayer K) (c : Cloud (Fin (k + 2) → K)) (radius bw : K)
    (f : Fin c.n → ℕ → K) (i : Fin c.n) (o : ℕ) : K := L.specBetween ker act c c radius bw f i o

theorem ConvLayer.mix_self (ker act : K → K) (L : ConvLayer K) (cin cout : Cloud (Fin (k + 2) → K)) (radius bw : K)
    (i : Fin cout.n) (f : Fin cin.n → ℕ → K) (o : ℕ) :
    L.mix ker act cin cout radius bw i i f o = L.specBetween ker act cin cout radius bw f i o := by
  cases L <;> rfl

/-- Specification of the skip connection: the input features, or their product with
the weights plus the bias. -/
def skipSpec {n : ℕ} (proj : Option (ℕ × (ℕ → ℕ → K) × (ℕ → K))) (f : Fin n → ℕ → K) (i : Fin n) (x : ℕ) : K :=
  match proj with
  | none => f i x
  | some q => (∑ a ∈ Finset.range q.1, f i a * q.2.1 a x) + q.2.2 x

theorem ResBlock.skip_eq {n : ℕ} (b : ResBlock n K) (f : Fin n → ℕ → K) (i : Fin n) (x : ℕ) :
    b.skip f i x = skipSpec b.proj f i x := by
  unfold ResBlock.skip skipSpec
  cases b.proj <;> rfl

/-- A residual network whose convolutions are given by `conv`. -/
def netOf {n : ℕ} (relu : K → K) (conv : ConvLayer K → (Fin n → ℕ → K) → Fin n → ℕ → K) :
    List (ResBlock n K) → (Fin n → ℕ → K) → Fin n → ℕ → K
  | [], f => f
  | b :: bs, f => netOf relu conv bs (fun i x =>
      conv b.conv2 (fun i x => relu (b.bn2 (conv b.conv1 (fun i x => relu (b.bn1 f i x))) i x)) i x +
        skipSpec b.proj f i x)

/-! ## Neighbourhoods of the blocks -/

/-- What is needed of a neighbourhood object and its densities: ids are the
neighbours of point `ctr i` for row `i`, without repetition; densities are those
of the neighbours. -/
structure BlockNbh (ker : K → K) (dev : Device) (cin cout : Cloud (Fin (k + 2) → K)) (radius bw : K)
    (ctr : Fin cout.n → Fin cout.n) (h : Nbh k K) : Prop where
  gn : h.g.c = cin
  sn : h.sample.n = cout.n
  nodup : h.originalNeighIds.Nodup
  mem : ∀ (p : Fin h.g.c.n) (i : Fin h.sample.n) (p' : Fin cin.n) (i' : Fin cout.n), p.val = p'.val → i.val = i'.val →
    ((p, i) ∈ h.originalNeighIds ↔ p' ∈ nbrs cin cout radius (ctr i'))
  pdf : ∀ l, (h.runGet ker dev none ⟨fun _ => bw, .constant, false⟩).1 = .ok l →
    ∀ j : Fin h.originalNeighIds.length, ∀ p' : Fin cin.n, p'.val = (h.originalNeighIds.get j).1.val →
      l.getD j.val 0 = density ker cin (fun _ => bw) (fun _ => radius) p'

/-- With an explicit sample cloud the centres are the points themselves. -/
theorem explicit_blockNbh {ker : K → K} {dev : Device} {eps : K} {c c' : Cloud (Fin (k + 2) → K)} {radius bw : K}
    (hok : LayerOk c c' radius eps) {h : Nbh k K} (hl : layerNbh dev eps c c' radius = .ok h) :
    BlockNbh ker dev c c' radius bw id h := by
  obtain ⟨nb, hnh, hf⟩ := layerNbh_eq hl
  have hpdf := fun l hp => layer_pdf (ker := ker) (dev := dev) hok h hnh bw l hp
  subst hnh
  obtain ⟨h1, h2⟩ := layer_ids hok hf
  refine ⟨rfl, rfl, h2, ?_, ?_⟩
  · intro p i p' i' hp hi
    have e1 : p = p' := Fin.val_injective hp
    have e2 : i = i' := Fin.val_injective hi
    subst e1 e2
    exact h1 p i
  · intro l hl' j p' hp'
    have := hpdf l hl' j
    rw [this]
    exact congrArg (density ker c (fun _ => bw) (fun _ => radius)) (Fin.val_injective hp'.symm)

/-- Without sample cloud, row `i` holds the neighbours of point `perm i`, the
point on place `i` of the sorted order. -/
theorem default_blockNbh {ker : K → K} {dev : Device} {eps : K} {c : Cloud (Fin (k + 2) → K)} {radius bw : K}
    (hok : LayerOk c c radius eps) {h : Nbh k K} (hl : resNbh dev eps c radius = .ok h) :
    BlockNbh ker dev c c radius bw (⟨c, fun _ => radius, eps⟩ : Grid (k + 2) K).perm h := by
  unfold resNbh at hl
  obtain ⟨e1, e2, e3, e4, hf⟩ := new_pairs hl
  obtain ⟨h1, h2, h3⟩ := C20_original_ids dev _ _ _ h hl
  have hden := C34_density_formula ker dev _ _ h hl
  obtain ⟨g', r', s', q', nb'⟩ := h
  simp only [Option.getD_none, Option.isNone_none] at e1 e2 e3 e4
  subst e1 e2 e3 e4
  have hreg : Regular (⟨⟨c, fun _ => radius, eps⟩, fun _ => radius,
      (⟨c, fun _ => radius, eps⟩ : Grid (k + 2) K).sortedCloud, true, nb'⟩ : Nbh k K) :=
    ⟨hok.valid, hok.radius_pos, fun _ => le_refl _, rfl, hok.eps_pos⟩
  refine ⟨rfl, rfl, h2, ?_, ?_⟩
  · intro p i p' i' hp hi
    have e1 : p = p' := Fin.val_injective hp
    have e2 : i = i' := Fin.val_injective hi
    subst e1 e2
    refine ⟨fun hp => ?_, fun hp => ?_⟩
    · have := h1 p i hp
      rw [mem_nbrs]
      exact this
    · rw [mem_nbrs] at hp
      exact h3 hreg p i hp
  · intro l hl' j p' hp'
    unfold Nbh.runGet at hl'
    dsimp only at hl'
    unfold Nbh.computePdf Nbh.rawPdf at hl'
    simp only [reduceCtorEq, if_false, if_true, Bool.false_eq_true, Except.ok.injEq] at hl'
    subst hl'
    have hj : j.val < nb'.pairs.length := by
      have := j.isLt
      simpa [Nbh.originalNeighIds] using this
    rw [List.getD_eq_getElem?_getD, List.getElem?_map, List.getElem?_eq_getElem hj]
    simp only [Option.map_some, Option.getD_some]
    rw [hden hreg (fun _ => bw) .constant]
    have h5 := originalNeighIds_get _ j hj
    have h6 : p' = (⟨c, fun _ => radius, eps⟩ : Grid (k + 2) K).perm (nb'.pairs[j.val]).1 := by
      apply Fin.val_injective
      rw [hp', h5]
    rw [h6]

/-- The convolution of a block at row `i`. -/
theorem callGiven_eq {ker act : K → K} {dev : Device} {cin cout : Cloud (Fin (k + 2) → K)} {radius bw : K}
    {ctr : Fin cout.n → Fin cout.n} {h : Nbh k K} (hb : BlockNbh ker dev cin cout radius bw ctr h)
    (L : ConvLayer K) (s s' : Option (List K)) (hs : s = none ∨ ∃ l, s = some l ∧
      (h.runGet ker dev none ⟨fun _ => bw, .constant, false⟩).1 = .ok l)
    (f : Fin cin.n → ℕ → K) (out : Fin cout.n → ℕ → K)
    (hc : L.callGiven ker act dev h s bw radius cin.pts cout.pts f = (.ok out, s')) :
    (∀ i o, out i o = L.mix ker act cin cout radius bw (ctr i) i f o) ∧
      ∃ l, s' = some l ∧ (h.runGet ker dev none ⟨fun _ => bw, .constant, false⟩).1 = .ok l := by
  have hget : ∀ l s', h.runGet ker dev s ⟨fun _ => bw, .constant, false⟩ = (.ok l, s') →
      s' = some l ∧ (h.runGet ker dev none ⟨fun _ => bw, .constant, false⟩).1 = .ok l := by
    intro l s' hg
    rcases hs with rfl | ⟨l', rfl, hl'⟩
    · refine ⟨?_, by rw [hg]⟩
      unfold Nbh.runGet at hg
      dsimp only at hg
      split at hg
      · simp at hg
      · simp only [Prod.mk.injEq, Except.ok.injEq] at hg
        rw [← hg.1, ← hg.2]
    · unfold Nbh.runGet at hg
      simp only [Prod.mk.injEq, Except.ok.injEq] at hg
      rw [← hg.1, ← hg.2]
      exact ⟨rfl, hl'⟩
  obtain ⟨hgn, hsn, hnd, hmem, hpdf⟩ := hb
  unfold ConvLayer.callGiven at hc
  split at hc
  · simp at hc
  · rename_i hsig
    split at hc
    · simp at hc
    · rename_i pdf s1 hg
      obtain ⟨g1, g2⟩ := hget pdf s1 hg
      have hp := hpdf pdf g2
      obtain ⟨g, r, s0, q, nb⟩ := h
      obtain ⟨gc, gcs, geps⟩ := g
      dsimp only at hgn
      subst hgn
      obtain ⟨sn, spts, sbatch, sB⟩ := s0
      dsimp only at hsn
      subst hsn
      have hp' := fun j => hp j _ rfl
      have hfin : ∀ i : Fin cout.n, Finset.univ.filter (fun p : Fin gc.n => (p, i) ∈
          (⟨⟨gc, gcs, geps⟩, r, ⟨cout.n, spts, sbatch, sB⟩, q, nb⟩ : Nbh k K).originalNeighIds) =
          nbrs gc cout radius (ctr i) := by
        intro i
        ext p
        simp only [Finset.mem_filter, Finset.mem_univ, true_and]
        exact hmem p i p i rfl rfl
      cases L with
      | kp => simp [ConvLayer.kind, LayerKind.callSig, PySig.bind, kpCallSig, blockCallKws] at hsig
      | mc L =>
        simp only [Prod.mk.injEq, Except.ok.injEq] at hc
        obtain ⟨hc1, hc2⟩ := hc
        refine ⟨?_, pdf, hc2 ▸ g1, g2⟩
        intro i o
        rw [← hc1]
        refine (dif_pos i.isLt).trans ?_
        unfold MCLayer.callOn Nbh.diffs
        simp only [hp']
        show _ = mcMix ker act L gc radius bw (nbrs gc cout radius (ctr i)) (cout.pts i) f o
        unfold mcMix
        rw [← hfin i]
        refine Eq.trans ?_ (mcConv_eq act L (k + 2) _ hnd
          (fun p c => rowOf (fun d => (gc.pts p d - cout.pts c d) / radius))
          (fun p => density ker gc (fun _ => bw) (fun _ => radius) p) f i o)
        simp only [gatherD_fin]
      | pc L =>
        simp only [Prod.mk.injEq, Except.ok.injEq] at hc
        obtain ⟨hc1, hc2⟩ := hc
        refine ⟨?_, pdf, hc2 ▸ g1, g2⟩
        intro i o
        rw [← hc1]
        refine (dif_pos i.isLt).trans ?_
        unfold PCLayer.callOn Nbh.diffs
        simp only [hp']
        show _ = pcMix ker act L gc radius bw (nbrs gc cout radius (ctr i)) (cout.pts i) f o
        unfold pcMix
        rw [← hfin i]
        refine Eq.trans ?_ (pcConv_eq act L (k + 2) _ hnd
          (fun p c => rowOf (fun d => gc.pts p d - cout.pts c d))
          (fun p => density ker gc (fun _ => bw) (fun _ => radius) p) f i o)
        simp only [gatherD_fin]

/-- The loop over any number of blocks, for both kinds of neighbourhood. -/
theorem resLoop_eq {ker act relu : K → K} {dev : Device} {c : Cloud (Fin (k + 2) → K)} {radius bw : K}
    {ctr : Fin c.n → Fin c.n} {h : Nbh k K} (hb : BlockNbh ker dev c c radius bw ctr h) :
    ∀ (blocks : List (ResBlock c.n K)) (s : Option (List K)), (s = none ∨ ∃ l, s = some l ∧
      (h.runGet ker dev none ⟨fun _ => bw, .constant, false⟩).1 = .ok l) →
    ∀ (f out : Fin c.n → ℕ → K), resLoop ker act relu dev h bw radius c.pts blocks s f = .ok out →
      out = netOf relu (fun L f i o => L.mix ker act c c radius bw (ctr i) i f o) blocks f
  | [], s, hs, f, out, hr => by
    unfold resLoop at hr
    simp only [Except.ok.injEq] at hr
    rw [← hr]; rfl
  | b :: bs, s, hs, f, out, hr => by
    unfold resLoop at hr
    split at hr
    · simp at hr
    · rename_i f' s' hrun
      unfold ResBlock.run at hrun
      split at hrun
      · simp at hrun
      · rename_i f1 s1 h1
        obtain ⟨a1, a2⟩ := callGiven_eq hb b.conv1 s s1 hs _ f1 h1
        split at hrun
        · simp at hrun
        · rename_i f2 s2 h2
          obtain ⟨b1, b2⟩ := callGiven_eq hb b.conv2 s1 s2 (Or.inr a2) _ f2 h2
          simp only [Except.ok.injEq, Prod.mk.injEq] at hrun
          obtain ⟨hf', hs'⟩ := hrun
          subst hs'
          have := resLoop_eq hb bs s2 (Or.inr b2) f' out hr
          rw [this]
          show netOf relu _ bs f' = netOf relu _ bs _
          refine congrArg (netOf relu _ bs) ?_
          rw [← hf']
          funext i x
          rw [b1 i x]
          have : f1 = fun i o => b.conv1.mix ker act c c radius bw (ctr i) i (fun i x => relu (b.bn1 f i x)) o :=
            funext (fun i => funext (fun o => a1 i o))
          rw [this, b.skip_eq]

/-! ## C52 -/

/-- **C52, what the network computes without a given neighbourhood**: row `i` of
every convolution uses the neighbours of the point on place `i` of the grid's
sorted order, but the coordinates and skip features of point `i`. -/
theorem C52_default_rows (ker act relu : K → K) (dev : Device) (eps : K) (c : Cloud (Fin (k + 2) → K))
    (radius bw : K) (hok : LayerOk c c radius eps) (blocks : List (ResBlock c.n K)) (f out : Fin c.n → ℕ → K)
    (h : resNet ker act relu dev eps c radius bw blocks none f = .ok out) :
    out = netOf relu (fun L f i o => L.mix ker act c c radius bw
      ((⟨c, fun _ => radius, eps⟩ : Grid (k + 2) K).perm i) i f o) blocks f := by
  unfold resNet at h
  dsimp only at h
  split at h
  · simp at h
  · rename_i nh hnh
    exact resLoop_eq (default_blockNbh hok hnh) blocks none (Or.inl rfl) f out h

/-- **C52, partial: sorted clouds.** Missing: clouds that are not stored in the
grid's order.  If they are, every row of every convolution belongs to the point
of this row. -/
theorem C52_sorted_partial (ker act relu : K → K) (dev : Device) (eps : K) (c : Cloud (Fin (k + 2) → K))
    (radius bw : K) (hok : LayerOk c c radius eps)
    (hperm : ∀ i, (⟨c, fun _ => radius, eps⟩ : Grid (k + 2) K).perm i = i)
    (blocks : List (ResBlock c.n K)) (f out : Fin c.n → ℕ → K)
    (h : resNet ker act relu dev eps c radius bw blocks none f = .ok out) :
    out = netOf relu (fun L => L.spec ker act c radius bw) blocks f := by
  rw [C52_default_rows ker act relu dev eps c radius bw hok blocks f out h]
  congr 1
  funext L f i o
  rw [hperm, ConvLayer.mix_self]

/-- **C52, partial: explicit neighbourhood.** With a neighbourhood built for the
cloud as explicit sample cloud, any number of blocks is aligned. -/
theorem C52_explicit_partial (ker act relu : K → K) (dev : Device) (eps : K) (c : Cloud (Fin (k + 2) → K))
    (radius bw : K) (hok : LayerOk c c radius eps) (nh : Nbh k K) (hnh : layerNbh dev eps c c radius = .ok nh)
    (blocks : List (ResBlock c.n K)) (f out : Fin c.n → ℕ → K)
    (h : resNet ker act relu dev eps c radius bw blocks (some nh) f = .ok out) :
    out = netOf relu (fun L => L.spec ker act c radius bw) blocks f := by
  unfold resNet at h
  dsimp only at h
  rw [resLoop_eq (explicit_blockNbh hok hnh) blocks none (Or.inl rfl) f out h]
  rfl

/-- Reordering the points of one cloud permutes the rows of a convolution. -/
theorem ConvLayer.spec_relabel (ker act : K → K) (L : ConvLayer K) (c : Cloud (Fin (k + 2) → K)) (radius bw : K)
    (σ : Equiv.Perm (Fin c.n)) (f : Fin c.n → ℕ → K) (i : Fin c.n) (o : ℕ) :
    L.spec ker act (c.relabel σ) radius bw (fun i => f (σ i)) i o = L.spec ker act c radius bw f (σ i) o := by
  have hn : ∀ p : Fin c.n, (σ.symm p : Fin c.n) ∈ (nbrs (c.relabel σ) (c.relabel σ) radius i : Finset (Fin c.n)) ↔
      p ∈ nbrs c c radius (σ i) := by
    intro p
    have := nbrs_relabel c c radius σ σ p (σ i)
    rw [Equiv.symm_apply_apply] at this
    exact this
  cases L with
  | mc L =>
    apply mcSpec_congr ker act L c c (c.relabel σ) (c.relabel σ) radius radius bw _ _ (σ i) i σ.symm hn
    · intro p d
      show (c.pts (σ (σ.symm p)) d - c.pts (σ i) d) / radius = _
      rw [σ.apply_symm_apply]
    · intro p; exact density_relabel _ _ _ _ _ _
    · intro p; exact congrArg f (σ.apply_symm_apply p)
  | pc L =>
    apply pcSpec_congr ker act L c c (c.relabel σ) (c.relabel σ) radius bw _ _ (σ i) i σ.symm hn
    · intro p d
      show (c.pts (σ (σ.symm p)) d - c.pts (σ i) d) = _
      rw [σ.apply_symm_apply]
    · intro p; exact density_relabel _ _ _ _ _ _
    · intro p; exact congrArg f (σ.apply_symm_apply p)
  | kp => rfl

/-- Specification: a normalisation that does not depend on the order of the
points. -/
def OrderFree {n : ℕ} (bn : (Fin n → ℕ → K) → Fin n → ℕ → K) : Prop :=
  ∀ (σ : Equiv.Perm (Fin n)) (f : Fin n → ℕ → K), bn (fun i => f (σ i)) = fun i => bn f (σ i)

/-- Non-vacuity: subtracting the mean of a channel, as batch normalisation does
during training, is order-free. -/
example {n : ℕ} : OrderFree (fun (f : Fin n → ℕ → K) i x => f i x - (∑ j, f j x) / n) := by
  intro σ f
  funext i x
  simp only [Equiv.sum_comp σ (fun j => f j x)]

theorem netOf_relabel {n : ℕ} (relu : K → K) (σ : Equiv.Perm (Fin n))
    (conv conv' : ConvLayer K → (Fin n → ℕ → K) → Fin n → ℕ → K)
    (hconv : ∀ L f, conv' L (fun i => f (σ i)) = fun i => conv L f (σ i)) : ∀ (blocks : List (ResBlock n K)),
    (∀ b ∈ blocks, OrderFree b.bn1 ∧ OrderFree b.bn2) → ∀ (f : Fin n → ℕ → K),
    netOf relu conv' blocks (fun i => f (σ i)) = fun i => netOf relu conv blocks f (σ i)
  | [], _, f => rfl
  | b :: bs, hb, f => by
    obtain ⟨h1, h2⟩ := hb b (by simp)
    have ih := netOf_relabel relu σ conv conv' hconv bs (fun b hb' => hb b (by simp [hb']))
    show netOf relu _ bs _ = fun i => netOf relu _ bs _ (σ i)
    rw [← ih]
    refine congrArg (netOf relu conv' bs) ?_
    have hskip : ∀ i x, skipSpec b.proj (fun i => f (σ i)) i x = skipSpec b.proj f (σ i) x := by
      intro i x
      unfold skipSpec
      cases b.proj with
      | none => rfl
      | some q => rfl
    have e1 : (fun i x => relu (b.bn1 (fun i => f (σ i)) i x)) = fun i => (fun i x => relu (b.bn1 f i x)) (σ i) := by
      rw [h1 σ f]
    have e3 := h2 σ (conv b.conv1 (fun i x => relu (b.bn1 f i x)))
    have e4 : (fun i x => relu (b.bn2 (conv' b.conv1 (fun i x => relu (b.bn1 (fun i => f (σ i)) i x))) i x)) =
        fun i => (fun i x => relu (b.bn2 (conv b.conv1 (fun i x => relu (b.bn1 f i x))) i x)) (σ i) := by
      rw [e1, hconv b.conv1 (fun i x => relu (b.bn1 f i x)), e3]
    funext i x
    rw [hskip, e4, hconv b.conv2 (fun i x => relu (b.bn2 (conv b.conv1 (fun i x => relu (b.bn1 f i x))) i x))]

/-- **C52, partial: order.** With explicit neighbourhoods, reordering the points
together with their features permutes the rows of the whole network's output,
for any number of blocks and any order-free normalisations. -/
theorem C52_order_partial (ker act relu : K → K) (dev dev' : Device) (eps : K) (c : Cloud (Fin (k + 2) → K))
    (radius bw : K) (hok : LayerOk c c radius eps) (σ : Equiv.Perm (Fin c.n)) (nh nh' : Nbh k K)
    (hnh : layerNbh dev eps c c radius = .ok nh)
    (hnh' : layerNbh dev' eps (c.relabel σ) (c.relabel σ) radius = .ok nh')
    (blocks : List (ResBlock c.n K)) (hbl : ∀ b ∈ blocks, OrderFree b.bn1 ∧ OrderFree b.bn2)
    (f out out' : Fin c.n → ℕ → K)
    (h : resNet ker act relu dev eps c radius bw blocks (some nh) f = .ok out)
    (h' : resNet ker act relu dev' eps (c.relabel σ) radius bw blocks (some nh') (fun i => f (σ i)) = .ok out')
    (i : Fin c.n) : out' i = out (σ i) := by
  rw [C52_explicit_partial ker act relu dev eps c radius bw hok nh hnh blocks f out h]
  rw [show out' = _ from C52_explicit_partial ker act relu dev' eps (c.relabel σ) radius bw (hok.relabel σ σ) nh' hnh'
    blocks _ out' h']
  exact congrFun (netOf_relabel relu σ (fun L => L.spec ker act c radius bw)
    (fun L => L.spec ker act (c.relabel σ) radius bw)
    (fun L f => funext (fun i => funext (fun o => ConvLayer.spec_relabel ker act L c radius bw σ f i o)))
    blocks hbl f) i

/-- Specification: the layer class is not `KPConv`. -/
def ConvLayer.usable (L : ConvLayer K) : Prop := L.kind ≠ .kp

theorem callGiven_returns (ker act : K → K) (dev : Device) (L : ConvLayer K) (hL : L.usable)
    (h : Nbh k K) (s : Option (List K)) (bw radius : K)
    (hg : ∃ l, (h.runGet ker dev none ⟨fun _ => bw, .constant, false⟩).1 = .ok l)
    {n m : ℕ} (ptsIn : Fin n → Fin (k + 2) → K) (ptsOut : Fin m → Fin (k + 2) → K) (f : Fin n → ℕ → K) :
    ∃ out s', L.callGiven ker act dev h s bw radius ptsIn ptsOut f = (.ok out, s') := by
  have hsig : L.kind.callSig.bind 0 (blockCallKws []) = .ok () := by
    unfold ConvLayer.usable at hL
    cases hk : L.kind with
    | kp => exact absurd hk hL
    | mc => decide
    | pc => decide
  have hget : ∃ l s', h.runGet ker dev s ⟨fun _ => bw, .constant, false⟩ = (.ok l, s') := by
    cases s with
    | some l => exact ⟨l, some l, rfl⟩
    | none =>
      obtain ⟨l, hl⟩ := hg
      exact ⟨l, _, Prod.ext hl rfl⟩
  obtain ⟨l, s', hl⟩ := hget
  unfold ConvLayer.callGiven
  rw [hsig]
  dsimp only
  rw [hl]
  cases L with
  | kp => exact absurd rfl hL
  | mc L => exact ⟨_, _, rfl⟩
  | pc L => exact ⟨_, _, rfl⟩

theorem resLoop_returns (ker act relu : K → K) (dev : Device) (h : Nbh k K) (bw radius : K)
    (hg : ∃ l, (h.runGet ker dev none ⟨fun _ => bw, .constant, false⟩).1 = .ok l)
    {n : ℕ} (pts : Fin n → Fin (k + 2) → K) : ∀ (blocks : List (ResBlock n K)),
    (∀ b ∈ blocks, b.conv1.usable ∧ b.conv2.usable) → ∀ (s : Option (List K)) (f : Fin n → ℕ → K),
    ∃ out, resLoop ker act relu dev h bw radius pts blocks s f = .ok out
  | [], _, s, f => ⟨f, rfl⟩
  | b :: bs, hb, s, f => by
    obtain ⟨hb1, hb2⟩ := hb b (by simp)
    unfold resLoop ResBlock.run
    obtain ⟨f1, s1, h1⟩ := callGiven_returns ker act dev b.conv1 hb1 h s bw radius hg pts pts
      (fun i x => relu (b.bn1 f i x))
    rw [h1]
    dsimp only
    obtain ⟨f2, s2, h2⟩ := callGiven_returns ker act dev b.conv2 hb2 h s1 bw radius hg pts pts
      (fun i x => relu (b.bn2 f1 i x))
    rw [h2]
    dsimp only
    exact resLoop_returns ker act relu dev h bw radius hg pts bs (fun b hb' => hb b (by simp [hb'])) _ _

/-- **C52, the network returns on the GPU** for non-empty clouds, any number of
`MCConv`/`PointConv` blocks, with and without explicit neighbourhood. -/
theorem C52_returns (ker act relu : K → K) (eps : K) (c : Cloud (Fin (k + 2) → K))
    (radius bw : K) (hok : LayerOk c c radius eps) (hn : 0 < c.n) (blocks : List (ResBlock c.n K))
    (hbl : ∀ b ∈ blocks, b.conv1.usable ∧ b.conv2.usable) (f : Fin c.n → ℕ → K) :
    (∃ out, resNet ker act relu .gpu eps c radius bw blocks none f = .ok out) ∧
      ∃ nh, layerNbh .gpu eps c c radius = .ok nh ∧
        ∃ out, resNet ker act relu .gpu eps c radius bw blocks (some nh) f = .ok out := by
  constructor
  · obtain ⟨r, hr⟩ := findNeighbors_gpu_returns (⟨c, fun _ => radius, eps⟩ : Grid (k + 2) K)
      (Grid.sortedCloud ⟨c, fun _ => radius, eps⟩)
      (fun _ => radius) hok.valid (fun _ => hok.radius_pos) hok.eps_pos hn (fun i => hok.valid _)
    have hnew : resNbh .gpu eps c radius = .ok ⟨⟨c, fun _ => radius, eps⟩, fun _ => radius, _, true, r⟩ := by
      unfold resNbh Nbh.new
      simp only
      rw [hr]
    unfold resNet
    dsimp only
    rw [hnew]
    dsimp only
    apply resLoop_returns _ _ _ _ _ _ _ _ _ _ hbl
    unfold Nbh.runGet Nbh.computePdf Nbh.rawPdf
    simp only [reduceCtorEq, if_false, if_true]
    exact ⟨_, rfl⟩
  · obtain ⟨nh, hnh⟩ := layerNbh_gpu eps c c radius hok hn hok.valid
    refine ⟨nh, hnh, ?_⟩
    have hg := layer_pdf_gpu ker eps c c radius bw hok hn nh hnh
    unfold resNet
    dsimp only
    exact resLoop_returns _ _ _ _ _ _ _ hg _ _ hbl _ _

end

/-- Three points far apart whose sorted order is a 3-cycle. -/
abbrev threeFar : Cloud (Fin 2 → ℚ) :=
  ⟨3, fun i d => if d.val = 0 then (if i.val = 0 then 5 else if i.val = 1 then 0 else 10) else 0, fun _ => 0, 1⟩

/-- An `MCConv` layer with constant kernel 1. -/
abbrev mcOnes : MCLayer ℚ := ⟨1, 1, 1, [⟨1, fun _ _ _ => 0, fun _ _ => 1⟩], fun _ _ _ => 1⟩

/-- One block without normalisation. -/
abbrev onesBlock : ResBlock 3 ℚ := ⟨id, id, .mc mcOnes, .mc mcOnes, none⟩

/-- **C52, refuted**: one block with constant kernels on three isolated points
does not return the aligned result. -/
theorem C52_aligned_false :
    ¬ (∀ (ker act relu : ℚ → ℚ) (dev : Device) (c : Cloud (Fin 2 → ℚ)) (radius bw : ℚ),
      LayerOk c c radius 1 → ∀ (blocks : List (ResBlock c.n ℚ)) (f out : Fin c.n → ℕ → ℚ),
        resNet (k := 0) ker act relu dev 1 c radius bw blocks none f = .ok out →
        out = netOf relu (fun L => L.spec ker act c radius bw) blocks f) := by
  intro H
  have hok : LayerOk threeFar threeFar (1 : ℚ) 1 := ⟨by decide, by norm_num, by norm_num⟩
  obtain ⟨⟨out, ho⟩, _⟩ := C52_returns (k := 0) (fun _ => (1 : ℚ)) id id 1 threeFar 1 1 hok (by decide) [onesBlock]
    (by intro b hb; simp only [List.mem_singleton] at hb; subst hb; exact ⟨by simp [ConvLayer.usable, ConvLayer.kind], by simp [ConvLayer.usable, ConvLayer.kind]⟩) (fun i _ => i.val)
  have h1 := H _ _ _ _ _ _ _ hok _ _ _ ho
  rw [C52_default_rows (k := 0) _ _ _ _ _ _ _ _ hok _ _ _ ho] at h1
  have h2 := congrFun (congrFun h1 (0 : Fin 3)) 0
  revert h2
  decide +kernel

/-! ## C79 -/

/-- **C79, when a call binds**: not more positional arguments than parameters, no keyword
given twice, every keyword names a parameter that has no positional argument, every
required parameter has a positional argument or a keyword. -/
theorem C79_bind (s : PySig) (hs : s.params.Nodup) (hreq : s.req ≤ s.params.length) (pos : ℕ) (kws : List String) :
    s.bind pos kws = .ok () ↔ pos ≤ s.params.length ∧ kws.Nodup ∧
      (∀ w ∈ kws, ∃ i, pos ≤ i ∧ s.params[i]? = some w) ∧
      (∀ i p, s.params[i]? = some p → i < s.req → i < pos ∨ p ∈ kws) := by
  have e1 : (∃ w ∈ kws, w ∉ s.params.drop pos) ↔ ¬ ∀ w ∈ kws, ∃ i, pos ≤ i ∧ s.params[i]? = some w := by
    push Not
    refine exists_congr (fun w => and_congr_right (fun _ => ?_))
    rw [List.mem_iff_getElem?, not_exists]
    simp only [List.getElem?_drop]
    exact ⟨fun h i hi => by have := h (i - pos); rwa [Nat.add_sub_cancel' hi] at this,
      fun h i => h (pos + i) (Nat.le_add_right _ _)⟩
  have e2 : (∃ p ∈ (s.params.take s.req).drop pos, p ∉ kws) ↔
      ¬ ∀ i p, s.params[i]? = some p → i < s.req → i < pos ∨ p ∈ kws := by
    push Not
    constructor
    · rintro ⟨p, hp, hk⟩
      obtain ⟨i, hi⟩ := List.mem_iff_getElem?.mp hp
      rw [List.getElem?_drop, List.getElem?_take] at hi
      split at hi
      · exact ⟨pos + i, p, hi, ‹_›, Nat.le_add_right _ _, hk⟩
      · cases hi
    · rintro ⟨i, p, hi, hr, hpos, hk⟩
      refine ⟨p, List.mem_iff_getElem?.mpr ⟨i - pos, ?_⟩, hk⟩
      rw [List.getElem?_drop, Nat.add_sub_cancel' hpos, List.getElem?_take, if_pos hr]
      exact hi
  unfold PySig.bind
  by_cases h1 : s.params.length < pos
  · rw [if_pos h1]
    simp only [reduceCtorEq, false_iff]
    omega
  rw [if_neg h1]
  by_cases h2 : ¬ kws.Nodup
  · rw [if_pos h2]
    simp only [reduceCtorEq, false_iff]
    exact fun h => h2 h.2.1
  rw [if_neg h2]
  by_cases h3 : ∃ w ∈ kws, w ∉ s.params.drop pos
  · rw [if_pos h3]
    simp only [reduceCtorEq, false_iff]
    exact fun h => e1.mp h3 h.2.2.1
  rw [if_neg h3]
  by_cases h4 : ∃ p ∈ (s.params.take s.req).drop pos, p ∉ kws
  · rw [if_pos h4]
    simp only [reduceCtorEq, false_iff]
    exact fun h => e2.mp h4 h.2.2.2
  rw [if_neg h4]
  simp only [true_iff]
  exact ⟨not_lt.mp h1, not_not.mp h2, not_not.mp (fun h => h3 (e1.mpr h)), not_not.mp (fun h => h4 (e2.mpr h))⟩

/-- The signatures of the layers meet the hypotheses, with calls that bind (as in the
layers' examples, by position) and calls that do not. -/
example : mcCallSig.params.Nodup ∧ mcCallSig.req ≤ mcCallSig.params.length ∧
    mcCallSig.bind 4 ["neighborhood"] = .ok () ∧ mcCallSig.bind 3 [] = .error .typeError ∧
    conv1x1Sig.bind 2 [] = .ok () ∧ conv1x1Sig.bind 1 ["num_features_in"] = .error .typeError := by
  decide +kernel

/-- **C79, the cause in the feature bottleneck network**: the call of `Conv1x1` binds with the two
sizes and with `name`, and with no other keyword. -/
theorem C79_conv1x1_keywords (kws : List String) : conv1x1Sig.bind 2 kws = .ok () ↔ kws = [] ∨ kws = ["name"] := by
  rw [C79_bind _ (by decide +kernel) (by decide +kernel)]
  constructor
  · rintro ⟨_, hn, hk, _⟩
    have hk' : ∀ w ∈ kws, w = "name" := by
      intro w hw
      obtain ⟨i, hi, e⟩ := hk w hw
      have : i < 3 := (List.getElem?_eq_some_iff.mp e).1
      have : i = 2 := by omega
      subst this
      exact (Option.some.inj e).symm
    match kws, hn, hk' with
    | [], _, _ => exact Or.inl rfl
    | [a], _, h => exact Or.inr (by rw [h a (by simp)])
    | a :: b :: l, hn, h =>
      rw [h a (by simp), h b (by simp)] at hn
      simp at hn
  · rintro (rfl | rfl)
    · refine ⟨by decide, by simp, by simp, ?_⟩
      intro i p hp hi
      exact Or.inl hi
    · refine ⟨by decide, by simp, ?_, ?_⟩
      · intro w hw
        rw [List.mem_singleton] at hw
        exact ⟨2, le_refl _, by rw [hw]; rfl⟩
      · intro i p hp hi
        exact Or.inl hi

/-- **C79, partial.** Missing: `KPConv`.  For the documented names of `MCConv`
and `PointConv` the calls of the blocks bind, with and without a bandwidth. -/
theorem C79_layer_types_partial (s : String)
    (hs : s ∈ ["mcconv", "mc", "mc_conv", "pointconv", "point_conv"]) :
    ∃ t, layerKind s = .ok t ∧ t.callSig.bind 0 (blockCallKws []) = .ok () ∧
      t.callSig.bind 0 (blockCallKws ["bandwidth"]) = .ok () := by
  simp only [List.mem_cons, List.not_mem_nil, or_false] at hs
  rcases hs with rfl | rfl | rfl | rfl | rfl
  · exact ⟨.mc, by decide, by decide, by decide⟩
  · exact ⟨.mc, by decide, by decide, by decide⟩
  · exact ⟨.mc, by decide, by decide, by decide⟩
  · exact ⟨.pc, by decide, by decide, by decide⟩
  · exact ⟨.pc, by decide, by decide, by decide⟩

/-- **C79, refuted for `KPConv`**: whatever further keyword arguments are given,
the calls of the blocks raise `TypeError`. -/
theorem C79_kpconv_raises (s : String) (hs : s ∈ ["kpconv", "kp", "kp_conv"]) (kwargs : List String) :
    layerKind s = .ok .kp ∧ LayerKind.kp.callSig.bind 0 (blockCallKws kwargs) = .error .typeError := by
  constructor
  · simp only [List.mem_cons, List.not_mem_nil, or_false] at hs
    rcases hs with rfl | rfl | rfl <;> decide
  · unfold PySig.bind
    rw [if_neg (by simp)]
    split
    · rfl
    · rw [if_pos]
      exact ⟨"radius", by simp [blockCallKws], by simp [LayerKind.callSig, kpCallSig]⟩

/-- **C79, refuted for networks**: a residual network with a `KPConv` layer in its
first block never returns, for any cloud, features and neighbourhood. -/
theorem C79_kpconv_network {K : Type*} [Field K] [LinearOrder K] [FloorRing K] {k : ℕ} (ker act relu : K → K)
    (dev : Device) (eps : K) (c : Cloud (Fin (k + 2) → K)) (radius bw : K) (b : ResBlock c.n K) (hb : b.conv1 = .kp)
    (bs : List (ResBlock c.n K)) (nb : Option (Nbh k K)) (f : Fin c.n → ℕ → K) :
    ∃ e, resNet ker act relu dev eps c radius bw (b :: bs) nb f = .error e := by
  have hloop : ∀ h : Nbh k K, resLoop ker act relu dev h bw radius c.pts (b :: bs) none f = .error .typeError := by
    intro h
    unfold resLoop ResBlock.run
    have : b.conv1.callGiven ker act dev h none bw radius c.pts c.pts (fun i x => relu (b.bn1 f i x)) =
        (.error .typeError, none) := by
      rw [hb]
      unfold ConvLayer.callGiven
      rw [show (ConvLayer.kp : ConvLayer K).kind.callSig.bind 0 (blockCallKws []) = .error .typeError from
        (C79_kpconv_raises "kp" (by simp) []).2]
    rw [this]
  unfold resNet
  cases nb with
  | some h => exact ⟨_, hloop h⟩
  | none =>
    dsimp only
    cases hr : resNbh dev eps c radius with
    | error e => exact ⟨e, rfl⟩
    | ok h => exact ⟨_, hloop h⟩

/-- **C79, the feature bottleneck network** cannot be constructed with any
positive number of blocks. -/
theorem C79_bottleneck_raises (n : ℕ) : bottleNeckNew (n + 1) = .error .typeError := by
  unfold bottleNeckNew
  rw [List.range_succ_eq_map, List.foldl_cons]
  have h1 : conv1x1Sig.bind 2 ["use_bias"] = .error .typeError := by decide
  rw [h1]
  generalize List.map Nat.succ (List.range n) = l
  induction l with
  | nil => rfl
  | cons a l ih => rw [List.foldl_cons]; exact ih

/-- **C79, refuted.** -/
theorem C79_layer_types_false :
    ¬ (∀ s ∈ ["mcconv", "kpconv", "pointconv"], ∃ t kwargs, layerKind s = .ok t ∧
      t.callSig.bind 0 (blockCallKws kwargs) = .ok ()) := by
  intro H
  obtain ⟨t, kw, h1, h2⟩ := H "kpconv" (by simp)
  obtain ⟨h3, h4⟩ := C79_kpconv_raises "kpconv" (by simp) kw
  rw [h3] at h1
  cases h1
  rw [h4] at h2
  cases h2

end PC
