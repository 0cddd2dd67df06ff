import Verif.Props.Move
import Verif.Props.Blocks
import Verif.Props.Blocks2
import Verif.Props.Tutorial

/-!
# Residual networks on batches whose shapes are moved (C167)

Specification: a network that treats the shapes of a batch apart from each other
returns the same rows if every shape is moved by a vector of its own.
-/

set_option linter.unusedVariables false
set_option linter.unusedSectionVars false

namespace PC

section
variable {K : Type*} [Field K] [LinearOrder K] [IsStrictOrderedRing K] [FloorRing K] {k : ℕ}

/-- What is computed from the pairs and the differences, if these agree. -/
theorem nbh_conv_move' {h : Nbh k K} (t : ℕ → Fin (k + 2) → K) {n m : ℕ} {ptsIn ptsIn' : Fin n → Fin (k + 2) → K}
    {ptsOut ptsOut' : Fin m → Fin (k + 2) → K} (hd : ∀ j, h.diffs ptsIn' ptsOut' j = h.diffs ptsIn ptsOut j) {β : Type*}
    (F : (pairs : List (Fin h.g.c.n × Fin h.sample.n)) → (Fin pairs.length → Fin (k + 2) → K) → β) :
    F (h.moveEach t).originalNeighIds ((h.moveEach t).diffs ptsIn' ptsOut') =
      F h.originalNeighIds (h.diffs ptsIn ptsOut) := by
  have key : ∀ (pairs : List (Fin h.g.c.n × Fin h.sample.n)) (_ : pairs = h.originalNeighIds),
      F pairs (fun j d => gatherD ptsIn' (pairs.get j).1.val d - gatherD ptsOut' (pairs.get j).2.val d) =
        F h.originalNeighIds (h.diffs ptsIn ptsOut) := by
    intro pairs e
    subst e
    congr 1
    funext j
    exact hd j
  exact key _ (originalNeighIds_move h t)

/-- A neighbourhood and points for which the moved neighbourhood with the moved points gives the same densities
and differences. -/
structure MovedNbh (h : Nbh k K) (t : ℕ → Fin (k + 2) → K) {n m : ℕ} (ptsIn ptsIn' : Fin n → Fin (k + 2) → K)
    (ptsOut ptsOut' : Fin m → Fin (k + 2) → K) : Prop where
  pdf : ∀ (ker : K → K) (dev : Device) p a, (h.moveEach t).runGet ker dev p a = h.runGet ker dev p a
  diffs : ∀ j, h.diffs ptsIn' ptsOut' j = h.diffs ptsIn ptsOut j

/-- The convolution of a block after the densities. -/
def ConvLayer.after (act : K → K) (L : ConvLayer K) (radius : K) {n m N M D' : ℕ} (pdf : List K) (f : Fin n → ℕ → K)
    (pairs : List (Fin N × Fin M)) (inp : Fin pairs.length → Fin D' → K) (c : Fin m) (o : ℕ) : K :=
  match L with
  | .mc L => if hc : c.val < M then L.conv act D' pairs (fun j => rowOf (fun d => inp j d / radius))
      (fun j => pdf.getD j.val 0) f ⟨c.val, hc⟩ o else 0
  | .pc L => if hc : c.val < M then L.conv act D' pairs (fun j => rowOf (inp j)) (fun j => pdf.getD j.val 0) f ⟨c.val, hc⟩ o else 0
  | .kp => 0

theorem callGiven_split (ker act : K → K) (dev : Device) (L : ConvLayer K) (h : Nbh k K) {n m : ℕ}
    (ptsIn : Fin n → Fin (k + 2) → K) (ptsOut : Fin m → Fin (k + 2) → K) (s : Option (List K)) (bw radius : K) (f : Fin n → ℕ → K) :
    L.callGiven ker act dev h s bw radius ptsIn ptsOut f =
      match L.kind.callSig.bind 0 (blockCallKws []) with
      | .error e => (.error e, s)
      | .ok () => match h.runGet ker dev s ⟨fun _ => bw, .constant, false⟩ with
        | (.error e, s') => (.error e, s')
        | (.ok pdf, s') => (.ok (L.after act radius pdf f h.originalNeighIds (h.diffs ptsIn ptsOut)), s') := by
  unfold ConvLayer.callGiven
  generalize L.kind.callSig.bind 0 (blockCallKws []) = b
  generalize h.runGet ker dev s ⟨fun _ => bw, .constant, false⟩ = x
  cases b with
  | error e => rfl
  | ok u =>
    obtain ⟨r, s'⟩ := x
    cases r with
    | error e => rfl
    | ok pdf => cases L <;> rfl

theorem callGiven_move (ker act : K → K) (dev : Device) (L : ConvLayer K) {h : Nbh k K} {t : ℕ → Fin (k + 2) → K} {n m : ℕ}
    {ptsIn ptsIn' : Fin n → Fin (k + 2) → K} {ptsOut ptsOut' : Fin m → Fin (k + 2) → K}
    (hm : MovedNbh h t ptsIn ptsIn' ptsOut ptsOut') (s : Option (List K)) (bw radius : K) (f : Fin n → ℕ → K) :
    L.callGiven ker act dev (h.moveEach t) s bw radius ptsIn' ptsOut' f = L.callGiven ker act dev h s bw radius ptsIn ptsOut f := by
  have e : ∀ pdf, (L.after act radius pdf f (h.moveEach t).originalNeighIds ((h.moveEach t).diffs ptsIn' ptsOut') : Fin m → ℕ → K) =
      L.after act radius pdf f h.originalNeighIds (h.diffs ptsIn ptsOut) := fun pdf =>
    nbh_conv_move' t hm.diffs (fun pairs inp => L.after act radius pdf f pairs inp)
  rw [callGiven_split, callGiven_split, hm.pdf]
  simp only [e]

theorem resLoop_move (ker act relu : K → K) (dev : Device) {h : Nbh k K} {t : ℕ → Fin (k + 2) → K} {n : ℕ}
    {pts pts' : Fin n → Fin (k + 2) → K} (hm : MovedNbh h t pts pts' pts pts') (bw radius : K) :
    ∀ (bs : List (ResBlock n K)) (s : Option (List K)) (f : Fin n → ℕ → K),
    resLoop ker act relu dev (h.moveEach t) bw radius pts' bs s f = resLoop ker act relu dev h bw radius pts bs s f
  | [], s, f => rfl
  | b :: bs, s, f => by
    have e : b.run ker act relu dev (h.moveEach t) bw radius pts' s f = b.run ker act relu dev h bw radius pts s f := by
      unfold ResBlock.run
      rw [callGiven_move ker act dev b.conv1 hm]
      cases b.conv1.callGiven ker act dev h s bw radius pts pts (fun i x => relu (b.bn1 f i x)) with
      | mk r s1 =>
        cases r with
        | error e => rfl
        | ok f1 =>
          dsimp only
          rw [callGiven_move ker act dev b.conv2 hm]
    rw [resLoop, resLoop, e]
    cases b.run ker act relu dev h bw radius pts s f with
    | error e => rfl
    | ok x => exact resLoop_move ker act relu dev hm bw radius bs x.2 x.1

theorem spatialLoop_move (ker act relu : K → K) (dev : Device) {h : SpatialNbhs k K} {t : ℕ → Fin (k + 2) → K} {n m : ℕ}
    {pts pts' : Fin n → Fin (k + 2) → K} {ptsD ptsD' : Fin m → Fin (k + 2) → K} (hd : MovedNbh h.down t pts pts' ptsD ptsD')
    (hi : MovedNbh h.inner t ptsD ptsD' ptsD ptsD') (hu : MovedNbh h.up t ptsD ptsD' pts pts') (bw : K) (radii : Fin 3 → K) :
    ∀ (bs : List (SpatialBlock n m K)) (s : SpatialPdf K) (f : Fin n → ℕ → K),
    spatialLoop ker act relu dev ⟨h.down.moveEach t, h.inner.moveEach t, h.up.moveEach t⟩ bw radii pts' ptsD' bs s f =
      spatialLoop ker act relu dev h bw radii pts ptsD bs s f
  | [], s, f => rfl
  | b :: bs, s, f => by
    have e : b.run ker act relu dev ⟨h.down.moveEach t, h.inner.moveEach t, h.up.moveEach t⟩ bw radii pts' ptsD' s f =
        b.run ker act relu dev h bw radii pts ptsD s f := by
      unfold SpatialBlock.run
      dsimp only
      rw [callGiven_move ker act dev b.down hd]
      cases b.down.callGiven ker act dev h.down s.down bw (radii 0) pts ptsD (fun i x => relu (b.bn1 f i x)) with
      | mk r s1 =>
        cases r with
        | error e => rfl
        | ok f1 =>
          dsimp only
          rw [callGiven_move ker act dev b.conv hi]
          cases b.conv.callGiven ker act dev h.inner s.inner bw (radii 1) ptsD ptsD (fun i x => relu (b.bn2 f1 i x)) with
          | mk r s2 =>
            cases r with
            | error e => rfl
            | ok f2 =>
              dsimp only
              rw [callGiven_move ker act dev b.up hu]
    rw [spatialLoop, spatialLoop, e]
    cases b.run ker act relu dev h bw radii pts ptsD s f with
    | error e => rfl
    | ok x => exact spatialLoop_move ker act relu dev hd hi hu bw radii bs x.2 x.1

/-- A neighbourhood with an explicit sample cloud. -/
theorem movedNbh_some {dev : Device} {eps : K} {cin cout : Cloud (Fin (k + 2) → K)} {radii cs : Fin (k + 2) → K} {h : Nbh k K}
    (hnew : Nbh.new dev ⟨cin, cs, eps⟩ radii (some cout) = .ok h) (t : ℕ → Fin (k + 2) → K) :
    MovedNbh h t cin.pts (cin.moveEach t).pts cout.pts (cout.moveEach t).pts :=
  ⟨fun ker dev' p a => C164_density hnew t ker p a, fun j => diffs_move hnew t j⟩

/-- A neighbourhood without sample cloud, all points moved by the same vector. -/
theorem movedNbh_none {dev : Device} {eps : K} {c : Cloud (Fin (k + 2) → K)} {radii cs : Fin (k + 2) → K} {h : Nbh k K}
    (hnew : Nbh.new dev ⟨c, cs, eps⟩ radii none = .ok h) (w : Fin (k + 2) → K) :
    MovedNbh h (fun _ => w) c.pts (c.moveEach fun _ => w).pts c.pts (c.moveEach fun _ => w).pts := by
  refine ⟨fun ker dev' p a => C164_density hnew _ ker p a, fun j => funext fun d => ?_⟩
  obtain ⟨e1, _, e3, _⟩ := new_pairs hnew
  have e1n : h.g.c.n = c.n := by rw [e1]
  have e3n : h.sample.n = c.n := by rw [e3]; rfl
  have h1 : (h.originalNeighIds.get j).1.val < c.n := lt_of_lt_of_eq (Fin.isLt _) e1n
  have h2 : (h.originalNeighIds.get j).2.val < c.n := lt_of_lt_of_eq (Fin.isLt _) e3n
  have key : ∀ (p : Fin c.n → Fin (k + 2) → K) (x : ℕ) (hx : x < c.n), gatherD p x = p ⟨x, hx⟩ := fun p x hx => dif_pos hx
  have key' : ∀ p : Fin c.n → Fin (k + 2) → K, gatherD p (h.originalNeighIds.get j).1.val d - gatherD p (h.originalNeighIds.get j).2.val d =
      p ⟨_, h1⟩ d - p ⟨_, h2⟩ d := fun p => by rw [key _ _ h1, key _ _ h2]
  exact (key' (c.moveEach fun _ => w).pts).trans ((add_sub_add_right_eq_sub _ _ _).trans (key' c.pts).symm)

/-- **C167, residual network with a neighbourhood built for the points.**  Missing:
the default without a neighbourhood, `C167_default_false`. -/
theorem C167_resnet_partial (ker act relu : K → K) (dev : Device) (eps : K) (c : Cloud (Fin (k + 2) → K)) (radius bw : K)
    (blocks : List (ResBlock c.n K)) (f : Fin c.n → ℕ → K) (t : ℕ → Fin (k + 2) → K) :
    (layerNbh dev eps (c.moveEach t) (c.moveEach t) radius).bind (fun h =>
        resNet ker act relu dev eps (c.moveEach t) radius bw blocks (some h) f) =
      (layerNbh dev eps c c radius).bind (fun h => resNet ker act relu dev eps c radius bw blocks (some h) f) := by
  rw [layerNbh_move]
  cases hn : layerNbh dev eps c c radius with
  | error e =>
    dsimp only [Except.map, Except.bind]
    rfl
  | ok h =>
    dsimp only [Except.map, Except.bind, resNet]
    exact resLoop_move ker act relu dev (movedNbh_some hn t) bw radius blocks none f

/-- **C167, network with spatial bottleneck, with neighbourhoods built for the
points.** -/
theorem C167_spatial_partial (ker act relu : K → K) (dev : Device) (eps : K) (c cd : Cloud (Fin (k + 2) → K))
    (radii : Fin 3 → K) (bw : K) (blocks : List (SpatialBlock c.n cd.n K)) (f : Fin c.n → ℕ → K) (t : ℕ → Fin (k + 2) → K)
    (hd hi hu : Nbh k K) (h0 : layerNbh dev eps c cd (radii 0) = .ok hd) (h1 : layerNbh dev eps cd cd (radii 1) = .ok hi)
    (h2 : layerNbh dev eps cd c (radii 2) = .ok hu) :
    ∃ hd' hi' hu', layerNbh dev eps (c.moveEach t) (cd.moveEach t) (radii 0) = .ok hd' ∧
      layerNbh dev eps (cd.moveEach t) (cd.moveEach t) (radii 1) = .ok hi' ∧
      layerNbh dev eps (cd.moveEach t) (c.moveEach t) (radii 2) = .ok hu' ∧
      spatialNet ker act relu dev eps (c.moveEach t) (cd.moveEach t) radii bw blocks (some ⟨hd', hi', hu'⟩) f =
        spatialNet ker act relu dev eps c cd radii bw blocks (some ⟨hd, hi, hu⟩) f := by
  refine ⟨hd.moveEach t, hi.moveEach t, hu.moveEach t, ?_, ?_, ?_, ?_⟩
  · rw [layerNbh_move, h0]; rfl
  · rw [layerNbh_move, h1]; rfl
  · rw [layerNbh_move, h2]; rfl
  · dsimp only [spatialNet]
    exact spatialLoop_move ker act relu dev (h := ⟨hd, hi, hu⟩) (movedNbh_some h0 t) (movedNbh_some h1 t) (movedNbh_some h2 t)
      bw radii blocks ⟨none, none, none⟩ f

/-- **C167, the whole batch moved by one vector**: also without neighbourhoods the networks return the same rows or raise the
same exception. -/
theorem C167_whole (ker act relu : K → K) (dev : Device) (eps : K) (c : Cloud (Fin (k + 2) → K)) (radius bw : K)
    (blocks : List (ResBlock c.n K)) (f : Fin c.n → ℕ → K) (w : Fin (k + 2) → K) :
    resNet ker act relu dev eps (c.moveEach fun _ => w) radius bw blocks none f =
      resNet ker act relu dev eps c radius bw blocks none f := by
  have e : resNbh dev eps (c.moveEach fun _ => w) radius = (resNbh dev eps c radius).map (·.moveEach fun _ => w) :=
    nbhNew_move_none dev ⟨c, fun _ => radius, eps⟩ (fun _ => w) (fun _ => radius)
  unfold resNet
  dsimp only
  rw [e]
  cases hn : resNbh dev eps c radius with
  | error e =>
    dsimp only [Except.map]
    rfl
  | ok h =>
    dsimp only [Except.map]
    exact resLoop_move ker act relu dev (movedNbh_none hn w) bw radius blocks none f

/-- The same for the spatial bottleneck. -/
theorem C167_whole_spatial (ker act relu : K → K) (dev : Device) (eps : K) (c cd : Cloud (Fin (k + 2) → K))
    (radii : Fin 3 → K) (bw : K) (blocks : List (SpatialBlock c.n cd.n K)) (f : Fin c.n → ℕ → K) (w : Fin (k + 2) → K) :
    spatialNet ker act relu dev eps (c.moveEach fun _ => w) (cd.moveEach fun _ => w) radii bw blocks none f =
      spatialNet ker act relu dev eps c cd radii bw blocks none f := by
  have e0 : Nbh.new dev ⟨c.moveEach fun _ => w, fun _ => radii 0, eps⟩ (fun _ => radii 0) (some (cd.moveEach fun _ => w)) =
      (Nbh.new dev ⟨c, fun _ => radii 0, eps⟩ (fun _ => radii 0) (some cd)).map (·.moveEach fun _ => w) :=
    nbhNew_move_some dev ⟨c, fun _ => radii 0, eps⟩ (fun _ => w) (fun _ => radii 0) cd
  have e1 : Nbh.new dev ⟨cd.moveEach fun _ => w, fun _ => radii 1, eps⟩ (fun _ => radii 1) none =
      (Nbh.new dev ⟨cd, fun _ => radii 1, eps⟩ (fun _ => radii 1) none).map (·.moveEach fun _ => w) :=
    nbhNew_move_none dev ⟨cd, fun _ => radii 1, eps⟩ (fun _ => w) (fun _ => radii 1)
  have e2 : ∀ r, Nbh.new dev ⟨cd.moveEach fun _ => w, r, eps⟩ r (some (c.moveEach fun _ => w)) =
      (Nbh.new dev ⟨cd, r, eps⟩ r (some c)).map (·.moveEach fun _ => w) := fun r =>
    nbhNew_move_some dev ⟨cd, r, eps⟩ (fun _ => w) r c
  unfold spatialNet
  dsimp only
  have key : spatialNbhs dev eps (c.moveEach fun _ => w) (cd.moveEach fun _ => w) radii =
      (spatialNbhs dev eps c cd radii).map (fun h => ⟨h.down.moveEach fun _ => w, h.inner.moveEach fun _ => w,
        h.up.moveEach fun _ => w⟩) ∧ ∀ h, spatialNbhs dev eps c cd radii = .ok h →
      Nbh.new dev ⟨c, fun _ => radii 0, eps⟩ (fun _ => radii 0) (some cd) = .ok h.down ∧
      Nbh.new dev ⟨cd, fun _ => radii 1, eps⟩ (fun _ => radii 1) none = .ok h.inner ∧
      ∃ r, Nbh.new dev ⟨cd, r, eps⟩ r (some c) = .ok h.up := by
    unfold spatialNbhs
    rw [e0, e1]
    cases hd : Nbh.new dev ⟨c, fun _ => radii 0, eps⟩ (fun _ => radii 0) (some cd) with
    | error e => exact ⟨rfl, fun h hh => by cases hh⟩
    | ok hd' =>
      obtain ⟨q1, q2, q3, q4, _⟩ := new_pairs hd
      dsimp only [Except.map]
      cases hi : Nbh.new dev ⟨cd, fun _ => radii 1, eps⟩ (fun _ => radii 1) none with
      | error e => exact ⟨rfl, fun h hh => by cases hh⟩
      | ok hi' =>
        dsimp only
        have t1 : hd'.transpose dev = Nbh.new dev ⟨cd, fun _ => radii 0, eps⟩ (fun _ => radii 0) (some c) := by
          unfold Nbh.transpose
          rw [q4]
          simp only [Option.isNone_some, Bool.false_eq_true, if_false, q1, q2, q3, Option.getD_some]
        have t2 : (hd'.moveEach fun _ => w).transpose dev =
            Nbh.new dev ⟨cd.moveEach fun _ => w, fun _ => radii 0, eps⟩ (fun _ => radii 0) (some (c.moveEach fun _ => w)) := by
          unfold Nbh.transpose Nbh.moveEach Grid.moveEach
          dsimp only
          rw [q4]
          simp only [Option.isNone_some, Bool.false_eq_true, if_false, q1, q2, q3, Option.getD_some]
        rw [t1, t2, e2, e2]
        by_cases hr : radii 0 = radii 2
        · rw [if_pos hr, if_pos hr]
          cases hu : Nbh.new dev ⟨cd, fun _ => radii 0, eps⟩ (fun _ => radii 0) (some c) with
          | error e => exact ⟨rfl, fun h hh => by cases hh⟩
          | ok hu' => exact ⟨rfl, fun h hh => by cases hh; exact ⟨rfl, rfl, _, hu⟩⟩
        · rw [if_neg hr, if_neg hr]
          cases hu : Nbh.new dev ⟨cd, fun _ => radii 2, eps⟩ (fun _ => radii 2) (some c) with
          | error e => exact ⟨rfl, fun h hh => by cases hh⟩
          | ok hu' => exact ⟨rfl, fun h hh => by cases hh; exact ⟨rfl, rfl, _, hu⟩⟩
  rw [key.1]
  cases hn : spatialNbhs dev eps c cd radii with
  | error e =>
    dsimp only [Except.map]
    rfl
  | ok h =>
    dsimp only [Except.map]
    obtain ⟨k1, k2, r, k3⟩ := key.2 h hn
    exact spatialLoop_move ker act relu dev (movedNbh_some k1 _) (movedNbh_none k2 w) (movedNbh_some k3 _) bw radii blocks
      ⟨none, none, none⟩ f

/-! ### One shape in two batches -/

/-- Specification: the two networks have the same layers, and their normalisations treat every shape apart (as at
inference). -/
def SameBlock {c c' : Cloud (Fin (k + 2) → K)} {b b' : ℕ} (s : SameElem c c' b b') (B : ResBlock c.n K) (B' : ResBlock c'.n K) : Prop :=
  B'.conv1 = B.conv1 ∧ B'.conv2 = B.conv2 ∧ B'.proj = B.proj ∧
    (∀ f f', s.Agree f f' → s.Agree (B.bn1 f) (B'.bn1 f')) ∧ ∀ f f', s.Agree f f' → s.Agree (B.bn2 f) (B'.bn2 f')

theorem spec_elem {cin cin' cout cout' : Cloud (Fin (k + 2) → K)} {b b' : ℕ} (s : SameElem cin cin' b b') (t : SameElem cout cout' b b')
    (ker act : K → K) (L : ConvLayer K) (radius bw : K) {f : Fin cin.n → ℕ → K} {f' : Fin cin'.n → ℕ → K} (hf : s.Agree f f') :
    t.Agree (L.specBetween ker act cin cout radius bw f) (L.specBetween ker act cin' cout' radius bw f') := by
  cases L with
  | mc L => exact mcSpec_elem s t ker act L radius bw f f' hf
  | pc L => exact pcSpec_elem s t ker act L radius bw f f' hf
  | kp => exact fun p => rfl

theorem skipSpec_elem {c c' : Cloud (Fin (k + 2) → K)} {b b' : ℕ} (s : SameElem c c' b b') (p : Option (ℕ × (ℕ → ℕ → K) × (ℕ → K)))
    {f : Fin c.n → ℕ → K} {f' : Fin c'.n → ℕ → K} (hf : s.Agree f f') : s.Agree (skipSpec p f) (skipSpec p f') := by
  intro q
  cases p with
  | none => exact hf q
  | some p =>
    funext o
    simp only [skipSpec, hf q]

theorem netOf_elem {c c' : Cloud (Fin (k + 2) → K)} {b b' : ℕ} (s : SameElem c c' b b') (ker act relu : K → K) (radius bw : K) :
    ∀ {bs : List (ResBlock c.n K)} {bs' : List (ResBlock c'.n K)}, List.Forall₂ (SameBlock s) bs bs' →
    ∀ {f : Fin c.n → ℕ → K} {f' : Fin c'.n → ℕ → K}, s.Agree f f' →
    s.Agree (netOf relu (fun L => L.spec ker act c radius bw) bs f) (netOf relu (fun L => L.spec ker act c' radius bw) bs' f')
  | [], [], .nil, f, f', hf => hf
  | B :: bs, B' :: bs', .cons hB hbs, f, f', hf => by
    obtain ⟨e1, e2, e3, n1, n2⟩ := hB
    rw [netOf, netOf]
    refine netOf_elem s ker act relu radius bw hbs ?_
    rw [e1, e2, e3]
    have a1 : s.Agree (fun i x => relu (B.bn1 f i x)) (fun i x => relu (B'.bn1 f' i x)) := fun p => by
      funext x
      show relu (B'.bn1 f' (s.e p) x) = relu (B.bn1 f p x)
      rw [n1 f f' hf p]
    have a2 := spec_elem s s ker act B.conv1 radius bw a1
    have a3 : s.Agree (fun i x => relu (B.bn2 (B.conv1.spec ker act c radius bw fun i x => relu (B.bn1 f i x)) i x))
        (fun i x => relu (B'.bn2 (B.conv1.spec ker act c' radius bw fun i x => relu (B'.bn1 f' i x)) i x)) := fun p => by
      funext x
      show relu (B'.bn2 _ (s.e p) x) = relu (B.bn2 _ p x)
      rw [n2 _ _ a2 p]
    have a4 := spec_elem s s ker act B.conv2 radius bw a3
    have a5 := skipSpec_elem s B.proj hf
    intro p
    funext x
    show _ + _ = _ + _
    exact congrArg₂ (· + ·) (congrFun (a4 p) x) (congrFun (a5 p) x)

/-- **C167, one shape in two batches**: with neighbourhoods built for the points, the rows of a shape are the same in
two batches that both contain it, in one of them moved, with any other shapes and any order of the points. -/
theorem C167_shape_partial (ker act relu : K → K) (dev dev' : Device) (eps : K) (c c' : Cloud (Fin (k + 2) → K)) (radius bw : K)
    (hok : LayerOk c c radius eps) (hok' : LayerOk c' c' radius eps) (t : ℕ → Fin (k + 2) → K) {b b' : ℕ}
    (s : SameElem (c.moveEach t) c' b b') {blocks : List (ResBlock c.n K)} {blocks' : List (ResBlock c'.n K)}
    (hb : List.Forall₂ (SameBlock (c := c.moveEach t) s) blocks blocks') (h h' : Nbh k K) (hn : layerNbh dev eps c c radius = .ok h)
    (hn' : layerNbh dev' eps c' c' radius = .ok h') {f : Fin c.n → ℕ → K} {f' : Fin c'.n → ℕ → K}
    (hf : SameElem.Agree (c := c.moveEach t) s f f') {out : Fin c.n → ℕ → K} {out' : Fin c'.n → ℕ → K}
    (hr : resNet ker act relu dev eps c radius bw blocks (some h) f = .ok out)
    (hr' : resNet ker act relu dev' eps c' radius bw blocks' (some h') f' = .ok out') :
    ∀ p : {p : Fin c.n // c.batch p = b}, out' (s.e p).1 = out p.1 := by
  have e := C167_resnet_partial ker act relu dev eps c radius bw blocks f t
  rw [hn, layerNbh_move, hn] at e
  dsimp only [Except.map, Except.bind] at e
  rw [hr] at e
  have hm : layerNbh dev eps (c.moveEach t) (c.moveEach t) radius = .ok (h.moveEach t) := by
    rw [layerNbh_move, hn]
    dsimp only [Except.map]
  have o1 := C52_explicit_partial ker act relu dev eps (c.moveEach t) radius bw ⟨hok.valid, hok.radius_pos, hok.eps_pos⟩
    (h.moveEach t) hm blocks f out e
  have o2 := C52_explicit_partial ker act relu dev' eps c' radius bw hok' h' hn' blocks' f' out' hr'
  intro p
  rw [o1, o2]
  exact netOf_elem s ker act relu radius bw hb hf p

end

/-! ### The default mixes the shapes -/

/-- Two shapes of one point each. -/
abbrev twoShapes : Cloud (Fin 2 → ℚ) := ⟨2, fun i d => if i.val = 0 then 0 else 10, fun i => i.val, 2⟩

/-- An `MCConv` layer whose kernel is the first coordinate. -/
abbrev mcCoord : MCLayer ℚ := ⟨1, 1, 1, [⟨1, fun _ a _ => if a = 0 then 1 else 0, fun _ _ => 0⟩], fun _ _ _ => 1⟩

/-- One block without normalisation. -/
abbrev coordBlock : ResBlock 2 ℚ := ⟨id, id, .mc mcOnes, .mc mcCoord, none⟩

/-- The second shape moved. -/
abbrev oneMoved : ℕ → Fin 2 → ℚ := fun b _ => if b = 1 then 1 else 0

/-- **C167, refuted for the default**: without a neighbourhood, in a batch of two shapes with sorted batch ids, moving
the second shape changes the rows of the first. -/
theorem C167_default_false :
    ¬ (∀ (ker act relu : ℚ → ℚ) (dev : Device) (c : Cloud (Fin 2 → ℚ)) (radius bw : ℚ), LayerOk c c radius 1 → Monotone c.batch →
      ∀ (blocks : List (ResBlock c.n ℚ)) (f : Fin c.n → ℕ → ℚ) (t : ℕ → Fin 2 → ℚ) (b : ℕ) (out out' : Fin c.n → ℕ → ℚ),
        t b = 0 → resNet (k := 0) ker act relu dev 1 c radius bw blocks none f = .ok out →
        resNet (k := 0) ker act relu dev 1 (c.moveEach t) radius bw blocks none f = .ok out' →
        ∀ i, c.batch i = b → out' i = out i) := by
  intro H
  have hok : LayerOk twoShapes twoShapes (1 : ℚ) 1 := ⟨by decide, by norm_num, by norm_num⟩
  have hok' : LayerOk (twoShapes.moveEach oneMoved) (twoShapes.moveEach oneMoved) (1 : ℚ) 1 := ⟨hok.valid, by norm_num, by norm_num⟩
  have hu : ∀ b ∈ [coordBlock], b.conv1.usable ∧ b.conv2.usable := by
    intro b hb
    simp only [List.mem_singleton] at hb
    subst hb
    exact ⟨by simp [ConvLayer.usable, ConvLayer.kind], by simp [ConvLayer.usable, ConvLayer.kind]⟩
  obtain ⟨⟨out, ho⟩, _⟩ := C52_returns (k := 0) (fun _ => (1 : ℚ)) id id 1 twoShapes 1 1 hok (by decide) [coordBlock] hu
    (fun _ _ => 1)
  obtain ⟨⟨out', ho'⟩, _⟩ := C52_returns (k := 0) (fun _ => (1 : ℚ)) id id 1 (twoShapes.moveEach oneMoved) 1 1 hok'
    (by decide) [coordBlock] hu (fun _ _ => 1)
  have h1 := H (fun _ => 1) id id .gpu twoShapes 1 1 hok (fun i j h => h) [coordBlock] (fun _ _ => 1) oneMoved 0 out out' (by decide) ho ho'
    (0 : Fin 2) rfl
  rw [C52_default_rows (k := 0) _ _ _ _ _ _ _ _ hok _ _ _ ho, C52_default_rows (k := 0) _ _ _ _ _ _ _ _ hok' _ _ _ ho'] at h1
  have h2 := congrFun h1 0
  revert h2
  decide +kernel

/-- The hypotheses of `C167_spatial_partial` are met: two shapes, reduced to themselves. -/
example : ∃ hd hi hu : Nbh 0 ℚ, layerNbh .gpu 1 twoShapes twoShapes (1 : ℚ) = .ok hd ∧
    layerNbh .gpu 1 twoShapes twoShapes (2 : ℚ) = .ok hi ∧ layerNbh .gpu 1 twoShapes twoShapes (3 : ℚ) = .ok hu := by
  obtain ⟨hd, e0⟩ := layerNbh_gpu (k := 0) 1 twoShapes twoShapes (1 : ℚ) ⟨by decide, by norm_num, by norm_num⟩ (by decide) (by decide)
  obtain ⟨hi, e1⟩ := layerNbh_gpu (k := 0) 1 twoShapes twoShapes (2 : ℚ) ⟨by decide, by norm_num, by norm_num⟩ (by decide) (by decide)
  obtain ⟨hu, e2⟩ := layerNbh_gpu (k := 0) 1 twoShapes twoShapes (3 : ℚ) ⟨by decide, by norm_num, by norm_num⟩ (by decide) (by decide)
  exact ⟨hd, hi, hu, e0, e1, e2⟩

/-- The second shape alone, where the movement takes it. -/
abbrev oneShape : Cloud (Fin 2 → ℚ) := ⟨1, fun _ _ => 11, fun _ => 0, 1⟩

/-- It is the same shape. -/
def sameShape : SameElem (twoShapes.moveEach oneMoved) oneShape 1 0 where
  e := ⟨fun _ => ⟨(0 : Fin 1), rfl⟩, fun _ => ⟨(1 : Fin 2), rfl⟩, fun p => by
    obtain ⟨p, hp⟩ := p
    refine Subtype.ext (Fin.ext ?_)
    exact hp.symm, fun p => Subtype.ext (Fin.ext (by
      have := p.1.isLt
      exact (Nat.lt_one_iff.1 this).symm))⟩
  pts := by
    rintro ⟨p, hp⟩
    obtain rfl : p = (1 : Fin 2) := Fin.ext hp
    funext d
    change (11 : ℚ) = (if (1 : ℕ) = 0 then 0 else 10) + (if (1 : ℕ) = 1 then 1 else 0)
    norm_num

/-- The hypotheses of `C167_shape_partial` are met: the second of two shapes, moved, and the same shape alone. -/
example : ∃ (h h' : Nbh 0 ℚ) (out : Fin 2 → ℕ → ℚ) (out' : Fin 1 → ℕ → ℚ),
    resNet (k := 0) (fun _ => 1) id id .gpu 1 twoShapes 1 1 [coordBlock] (some h) (fun i _ => i.val + 1) = .ok out ∧
    resNet (k := 0) (fun _ => 1) id id .gpu 1 oneShape 1 1 [⟨id, id, .mc mcOnes, .mc mcCoord, none⟩] (some h') (fun _ _ => 2) = .ok out' ∧
    out' 0 = out 1 := by
  have hok : LayerOk twoShapes twoShapes (1 : ℚ) 1 := ⟨by decide, by norm_num, by norm_num⟩
  have hok' : LayerOk oneShape oneShape (1 : ℚ) 1 := ⟨by decide, by norm_num, by norm_num⟩
  obtain ⟨_, h, hn, out, ho⟩ := C52_returns (k := 0) (fun _ => (1 : ℚ)) id id 1 twoShapes 1 1 hok (by decide) [coordBlock]
    (by intro b hb; simp only [List.mem_singleton] at hb; subst hb; exact ⟨by simp [ConvLayer.usable, ConvLayer.kind], by simp [ConvLayer.usable, ConvLayer.kind]⟩)
    (fun i _ => i.val + 1)
  obtain ⟨_, h', hn', out', ho'⟩ := C52_returns (k := 0) (fun _ => (1 : ℚ)) id id 1 oneShape 1 1 hok' (by decide)
    [⟨id, id, .mc mcOnes, .mc mcCoord, none⟩]
    (by intro b hb; simp only [List.mem_singleton] at hb; subst hb; exact ⟨by simp [ConvLayer.usable, ConvLayer.kind], by simp [ConvLayer.usable, ConvLayer.kind]⟩)
    (fun _ _ => 2)
  refine ⟨h, h', out, out', ho, ho', ?_⟩
  refine C167_shape_partial (k := 0) _ _ _ .gpu .gpu 1 twoShapes oneShape 1 1 hok hok' oneMoved sameShape
    (.cons ⟨rfl, rfl, rfl, fun f f' hf => hf, fun f f' hf => hf⟩ .nil) h h' hn hn' ?_ ho ho' ⟨(1 : Fin 2), rfl⟩
  rintro ⟨p, hp⟩
  obtain rfl : p = (1 : Fin 2) := Fin.ext hp
  funext x
  norm_num

/-! ### The network of the tutorial -/

section
variable {k : ℕ}

theorem netTutLoop_single (E : NetEnv) (N : NetTut (k + 2)) (o : CloudObj (Fin (k + 2) → ℝ)) (f : Fin o.c.n → ℕ → ℝ)
    (o' : CloudObj (Fin (k + 2) → ℝ)) :
    netTutLoop E N o f [o'] [] = (N.last.call E o.c o'.c N.lastConvRadius f).bind (fun g => .ok ⟨o', g⟩) := by
  rw [netTutLoop]
  cases N.last.call E o.c o'.c N.lastConvRadius f <;> rfl

theorem netTutLoop_move (E : NetEnv) (N : NetTut (k + 2)) (t : ℕ → Fin (k + 2) → ℝ) :
    ∀ (ls : List (LevelTut (k + 2))) (os : List (CloudObj (Fin (k + 2) → ℝ)))
    (o : CloudObj (Fin (k + 2) → ℝ)) (f : Fin o.c.n → ℕ → ℝ),
    netTutLoop E N (o.moveEach t) f (os.map (·.moveEach t)) ls =
      (netTutLoop E N o f os ls).map (fun x => ⟨x.1.moveEach t, x.2⟩)
  | [], [], o, f => rfl
  | l :: ls, [], o, f => rfl
  | [], [o'], o, f => by
    have h1 : N.last.call E (o.moveEach t).c (o'.moveEach t).c N.lastConvRadius f =
      N.last.call E o.c o'.c N.lastConvRadius f := NetConv.call_move E N.last o.c o'.c _ f t
    rw [netTutLoop_single E N o f]
    refine (netTutLoop_single E N (o.moveEach t) f (o'.moveEach t)).trans ?_
    refine (congrArg (Except.bind · _) h1).trans ?_
    cases N.last.call E o.c o'.c N.lastConvRadius f <;> rfl
  | [], o' :: o'' :: os, o, f => rfl
  | l :: ls, o' :: os, o, f => by
    have h1 : l.conv.call E (o.moveEach t).c (o'.moveEach t).c l.convRadius f =
      l.conv.call E o.c o'.c l.convRadius f := NetConv.call_move E l.conv o.c o'.c _ f t
    rw [netTutLoop_cons E N o o' f]
    refine (netTutLoop_cons E N (o.moveEach t) (o'.moveEach t) f (os.map (·.moveEach t)) l ls).trans ?_
    cases hc : l.conv.call E o.c o'.c l.convRadius f with
    | error e => rw [h1.trans hc]; rfl
    | ok g =>
      rw [h1.trans hc]
      exact netTutLoop_move E N t ls os o' _

theorem netTut_logits_move (E : NetEnv) (N : NetTut (k + 2)) (H : Hier k ℝ) (feats : List (List (ℕ → ℝ)))
    (t : ℕ → Fin (k + 2) → ℝ) : N.logits E (H.moveEach t) feats = N.logits E H feats := by
  match hc : H.clouds with
  | [] =>
    unfold NetTut.logits
    have : (H.moveEach t).clouds = [] := by show H.clouds.map _ = _; rw [hc]; rfl
    rw [this, hc]
  | o :: os =>
    have hc' : (H.moveEach t).clouds = o.moveEach t :: os.map (·.moveEach t) := by
      show H.clouds.map _ = _; rw [hc]; rfl
    have key : ∀ (H : Hier k ℝ) o os, H.clouds = o :: os → N.logits E H feats = ((o.flattenFeatures feats).1).bind (fun f0 =>
        (netTutLoop E N o f0 os N.levels).bind (fun x => .ok (List.ofFn (N.head.runTut E
          (fun (b : Fin x.1.c.B) ch => (globalPool .mean x.1.c x.2 b ch).getD 0))))) := by
      intro H o os hc
      unfold NetTut.logits
      rw [hc]
      dsimp only
      cases (o.flattenFeatures feats).1 with
      | error e => rfl
      | ok f0 =>
        dsimp only [Except.bind]
        cases netTutLoop E N o f0 os N.levels <;> rfl
    rw [key _ _ _ hc', key _ _ _ hc, flattenFeatures_move]
    cases (o.flattenFeatures feats).1 with
    | error e => rfl
    | ok f0 =>
      have := netTutLoop_move E N t N.levels os o f0
      dsimp only [Except.bind]
      rw [this]
      cases netTutLoop E N o f0 os N.levels with
      | error e => rfl
      | ok x => rfl

/-- **C164, the network of the tutorial.** -/
theorem C164_tutorial (E : NetEnv) (heps : 0 < E.eps) (N : NetTut (k + 2))
    (hN : 0 < N.lastSampleRadius ∧ ∀ l ∈ N.levels, 0 < l.sampleRadius) (lower : String → String) (mode : String) {V : ℕ}
    {points : List (List (Fin (k + 2) → ℝ))} (hV : ∀ s ∈ points, s.length = V) (t : ℕ → Fin (k + 2) → ℝ)
    (feats : List (List (ℕ → ℝ))) (res : Except Err (List (ℕ → ℝ))) :
    N.Call E lower mode V (points.mapIdx fun b s => s.map fun p d => p d + t b d) feats res ↔
      N.Call E lower mode V points feats res := by
  have hrs : ∀ r ∈ N.levels.map LevelTut.sampleRadius ++ [N.lastSampleRadius], 0 < r := by
    intro r hr
    rcases List.mem_append.1 hr with hr | hr
    · obtain ⟨l, hl, rfl⟩ := List.mem_map.1 hr
      exact hN.2 l hl
    · rw [List.mem_singleton.1 hr]
      exact hN.1
  set points' := points.mapIdx fun b s => s.map fun p d => p d + t b d with hp
  have hlen : points'.length = points.length := by rw [hp, List.length_mapIdx]
  have hV' : ∀ s ∈ points', s.length = V := by
    intro s hs
    rw [hp, List.mem_mapIdx] at hs
    obtain ⟨i, hi, rfl⟩ := hs
    rw [List.length_map]
    exact hV _ (List.getElem_mem hi)
  have hm : ShapesMoved t points points' (List.replicate points.length V) := by
    intro b
    simp only [hp, List.getD_eq_getElem?_getD, List.getElem?_mapIdx]
    cases points[b]? with
    | none => simp
    | some x => simp [List.map_take]
  have hP := paddedOk_full hV
  have hP' : PaddedOk V points' (List.replicate points.length V) := by
    have := paddedOk_full hV'
    rwa [hlen] at this
  unfold NetTut.Call
  rw [newPadded_noSizes, newPadded_noSizes, hlen]
  constructor
  · intro h
    have := call_move (B := points.length) heps hrs (L := fun H => N.logits E H feats) (fun H => netTut_logits_move E N H feats _) hP' hlen.symm
      (moved_back hm) (res := res) (by rw [hlen]; exact h)
    exact this
  · intro h
    have := call_move (B := points.length) heps hrs (L := fun H => N.logits E H feats) (fun H => netTut_logits_move E N H feats _) hP hlen hm
      (res := res) h
    rw [hlen] at this
    exact this

/-- The hypotheses of `C164_tutorial` are met. -/
example : ∃ rows, exTut.Call exEnv id "poisson" 2 [[![0, 0], ![3, 0]], [![2, 0], ![2, 5]]]
      [[fun _ => 1, fun _ => 0], [fun _ => 2, fun _ => 3]] (.ok rows) ∧
    exTut.Call exEnv id "poisson" 2 (([[![0, 0], ![3, 0]], [![2, 0], ![2, 5]]] : List (List (Fin 2 → ℝ))).mapIdx
      fun b s => s.map fun p d => p d + exMove b d) [[fun _ => 1, fun _ => 0], [fun _ => 2, fun _ => 3]] (.ok rows) := by
  have he : 0 < exEnv.eps := by norm_num [exEnv]
  have hV : ∀ s ∈ ([[![0, 0], ![3, 0]], [![2, 0], ![2, 5]]] : List (List (Fin 2 → ℝ))), s.length = 2 := by simp
  obtain ⟨rows, h⟩ := (C129_returns exEnv rfl he exTut exTut_ok id "poisson" (by simp) hV (by simp) (by simp)
    (feats := [[fun _ => 1, fun _ => 0], [fun _ => 2, fun _ => 3]]) rfl (by simp)).1
  exact ⟨rows, h, (C164_tutorial exEnv he exTut ⟨exTut_ok.last.2.1, fun l hl => (exTut_ok.levels l hl).2.1⟩ id "poisson" hV
    exMove _ _).2 h⟩

end

end PC
