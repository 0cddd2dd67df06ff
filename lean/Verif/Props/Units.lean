import Verif.Props.SampleSize
import Verif.Props.Move2

/-!
# The unit of length does not matter (C170)
-/

set_option linter.unusedVariables false
set_option linter.unusedSectionVars false

namespace PC

section
variable {k D : ℕ}

/-! ### Layers -/

/-- Specification: the layer of a network whose lengths are given in another unit, `s` new units being one old one.  Only `PointConv`
uses differences of coordinates that are not divided by the radius: its first kernel layer has to be divided by `s`. -/
noncomputable def NetConv.inUnits (s : ℝ) : NetConv D → NetConv D
  | .mc L => .mc L
  | .pc L => .pc { L with axis := fun i h => L.axis i h / s }
  | .kp L => .kp L

theorem NetConv.inUnits_ok {s : ℝ} {L : NetConv D} (h : L.Ok) : (L.inUnits s).Ok := by
  cases L <;> exact h

theorem NetConv.inUnits_back {s : ℝ} (hs : 0 < s) (L : NetConv D) : (L.inUnits s).inUnits s⁻¹ = L := by
  cases L with
  | mc L => rfl
  | kp L => rfl
  | pc L =>
    obtain ⟨a, b, ax, c, d, e, f, g, h⟩ := L
    simp only [NetConv.inUnits, NetConv.pc.injEq, PCLayer.mk.injEq, and_true, true_and]
    funext i h
    rw [div_div, mul_inv_cancel₀ hs.ne', div_one]

theorem Cloud.scale_valid {c : Cloud (Fin D → ℝ)} (h : c.Valid) (s : ℝ) : (c.scale s).Valid := h

theorem rowOf_units {s : ℝ} (hs : 0 < s) (v : Fin D → ℝ) {i : ℕ} (hi : i < D) (a : ℝ) :
    rowOf (fun d => s * v d) i * (a / s) = rowOf v i * a := by
  unfold rowOf gatherD
  rw [dif_pos hi, dif_pos hi]
  field_simp

theorem pcSpec_units (ker act : ℝ → ℝ) (L : PCLayer ℝ) (cin cout : Cloud (Fin (k + 2) → ℝ)) (radius bw s : ℝ) (hs : 0 < s)
    (f : Fin cin.n → ℕ → ℝ) (c : Fin cout.n) (o : ℕ) :
    pcSpec ker act { L with axis := fun i h => L.axis i h / s } (cin.scale s) (cout.scale s) (s * radius) bw f c o =
      pcSpec ker act L cin cout radius bw f c o := by
  have h1 : ∀ p, density ker (cin.scale s) (fun _ => bw) (fun _ => s * radius) p = density ker cin (fun _ => bw) (fun _ => radius) p :=
    fun p => density_scale ker cin (fun _ => bw) (fun _ => radius) s hs p
  have h1' : density ker (cin.scale s) (fun _ => bw) (fun _ => s * radius) = density ker cin (fun _ => bw) (fun _ => radius) := funext h1
  have h2 := nbrs_scale cin cout radius s hs c
  unfold pcSpec
  dsimp only
  rw [h1']
  refine (Finset.sum_congr h2 fun p _ => ?_)
  refine Finset.sum_congr rfl fun ch _ => Finset.sum_congr rfl fun hh _ => ?_
  have h3 : ∀ i ∈ Finset.range (k + 2), rowOf (fun d => (cin.scale s).pts p d - (cout.scale s).pts c d) i * (L.axis i hh / s) =
      rowOf (fun d => cin.pts p d - cout.pts c d) i * L.axis i hh := by
    intro i hi
    have hi := Finset.mem_range.1 hi
    have e : (fun d => (cin.scale s).pts p d - (cout.scale s).pts c d) = fun d => s * (cin.pts p d - cout.pts c d) := by
      funext d
      exact (mul_sub _ _ _).symm
    rw [e]
    exact rowOf_units hs _ hi _
  rw [Finset.sum_congr rfl h3, h2]
  rfl

theorem NetConv.call_units (E : NetEnv) (hdev : E.dev = .gpu) (heps : 0 < E.eps) {e' : ℝ} (he' : 0 < e') {L : NetConv (k + 2)} (hL : L.Ok)
    {cin cout : Cloud (Fin (k + 2) → ℝ)} {radius : ℝ} (hr : 0 < radius) (hv : cin.Valid) (hv' : cout.Valid)
    (hB : cout.B = cin.B) (hn : 0 < cin.n) (hn' : 0 < cout.n) {s : ℝ} (hs : 0 < s) (f : Fin cin.n → ℕ → ℝ) {g : Fin cout.n → ℕ → ℝ}
    (h : L.call E cin cout radius f = .ok g) :
    (L.inUnits s).call { E with eps := e' } (cin.scale s) (cout.scale s) (s * radius) f = .ok g := by
  have ok : LayerOk cin cout radius E.eps := ⟨hv, hr, heps⟩
  have ok' : LayerOk (cin.scale s) (cout.scale s) (s * radius) e' := ⟨hv, mul_pos hs hr, he'⟩
  obtain ⟨g', h'⟩ := NetConv.call_returns { E with eps := e' } hdev he' (NetConv.inUnits_ok (s := s) hL)
    (cin := cin.scale s) (cout := cout.scale s) (mul_pos hs hr) hv hv' hB hn hn' f
  rw [h']
  refine congrArg Except.ok ?_
  cases L with
  | mc L =>
    unfold NetConv.call at h
    unfold NetConv.inUnits NetConv.call at h'
    dsimp only at h h'
    funext c o
    rw [C41_mcconv_formula _ _ _ _ L cin cout radius _ ok f g h c o]
    refine (C41_mcconv_formula _ _ _ _ L (cin.scale s) (cout.scale s) (s * radius) _ ok' f g' h' c o).trans ?_
    refine mcSpec_congr E.ker E.act L cin cout (cin.scale s) (cout.scale s) radius (s * radius) (1 / 5) f f c c (Equiv.refl _) ?_ ?_ ?_ ?_ o
    · intro p
      rw [← nbrs_scale cin cout radius s hs c]
      rfl
    · intro p d
      show (s * cin.pts p d - s * cout.pts c d) / (s * radius) = _
      rw [← mul_sub, mul_div_mul_left _ _ hs.ne']
    · intro p
      exact density_scale E.ker cin (fun _ => 1 / 5) (fun _ => radius) s hs p
    · intro p; rfl
  | pc L =>
    unfold NetConv.call at h
    unfold NetConv.inUnits NetConv.call at h'
    dsimp only at h h'
    funext c o
    rw [C41_pointconv_formula _ _ _ _ L cin cout radius _ ok f g h c o]
    refine (C41_pointconv_formula _ _ _ _ _ (cin.scale s) (cout.scale s) (s * radius) _ ok' f g' h' c o).trans ?_
    exact pcSpec_units E.ker E.act L cin cout radius (1 / 5) s hs f c o
  | kp L =>
    unfold NetConv.call at h
    unfold NetConv.inUnits NetConv.call at h'
    dsimp only at h h'
    split at h
    · cases h
    rename_i n out e1
    split at h
    swap
    · cases h
    split at h'
    · cases h'
    rename_i n' out' e1'
    split at h'
    swap
    · cases h'
    cases Except.ok.inj h
    cases Except.ok.inj h'
    funext c o
    have k1 := (kp_call_spec ok hL.1 hL.2.1 hL.2.2 e1).2 c o
    have k2 := (kp_call_spec ok' hL.1 hL.2.1 hL.2.2 e1').2 c o
    refine k2.trans (Eq.trans ?_ k1.symm)
    refine kpSpec_congr L _ cin cout (cin.scale s) (cout.scale s) radius (s * radius) f f c c (Equiv.refl _) ?_ ?_ ?_ o
    · intro p
      rw [← nbrs_scale cin cout radius s hs c]
      rfl
    · intro p d
      show (s * cin.pts p d - s * cout.pts c d) / (s * radius) = _
      rw [← mul_sub, mul_div_mul_left _ _ hs.ne']
    · intro p; rfl

/-! ### Sampling and hierarchies -/

/-- The object of the scaled cloud. -/
noncomputable def CloudObj.scale (o : CloudObj (Fin D → ℝ)) (s : ℝ) : CloudObj (Fin D → ℝ) := { o with c := o.c.scale s }

theorem setBatchShape_scale (o : CloudObj (Fin D → ℝ)) (s : ℝ) (bs : Option (List ℕ)) :
    (o.scale s).setBatchShape bs = ((o.setBatchShape bs).1, (o.setBatchShape bs).2.scale s) := by
  obtain ⟨c, sz, b, sg, u⟩ := o
  cases bs with
  | none => rfl
  | some sh =>
    have key : ∀ c' : Cloud (Fin D → ℝ), c'.B = c.B → CloudObj.setBatchShape ⟨c', sz, b, sg, u⟩ (some sh) =
        if sh.prod = c.B then
          match sz with
          | none => (.ok (), ⟨c', none, some sh, some sh, u⟩)
          | some x => if sh.prod = x.2.length then (.ok (), ⟨c', some (sh, x.2), some sh, some sh, u⟩)
            else (.error .invalidArgument, ⟨c', sz, some sh, some sh, u⟩)
        else (.error .invalidArgument, ⟨c', sz, b, sg, u⟩) := by
      intro c' e
      unfold CloudObj.setBatchShape
      dsimp only
      rw [e]
      cases sz <;> rfl
    have h1 := key (c.scale s) rfl
    rw [show (⟨c, sz, b, sg, u⟩ : CloudObj (Fin D → ℝ)).scale s = ⟨c.scale s, sz, b, sg, u⟩ from rfl, h1, key c rfl]
    by_cases hB : sh.prod = c.B
    · rw [if_pos hB, if_pos hB]
      cases sz with
      | none => rfl
      | some x =>
        dsimp only
        by_cases hs : sh.prod = x.2.length
        · rw [if_pos hs, if_pos hs]; rfl
        · rw [if_neg hs, if_neg hs]; rfl
    · rw [if_neg hB, if_neg hB]
      rfl

/-- The grid of the scaled cloud. -/
noncomputable abbrev scaleGrid (g : Grid (k + 2) ℝ) (s : ℝ) (cs' : Fin (k + 2) → ℝ) (eps' : ℝ) : Grid (k + 2) ℝ := ⟨g.c.scale s, cs', eps'⟩

theorem poisson_units {dev dev' : Device} (g g' : Grid (k + 2) ℝ) {s r : ℝ} (hs : 0 < s) {cs' : Fin (k + 2) → ℝ} {eps' : ℝ}
    (eg : g' = scaleGrid g s cs' eps')
    {eq eq' : Bool} {nb : Pairs g.c.n g.sortedCloud.n} {nb' : Pairs g'.c.n g'.sortedCloud.n}
    (hnew : Nbh.new dev g (fun _ => r) none = .ok ⟨g, fun _ => r, g.sortedCloud, eq, nb⟩)
    (hnew' : Nbh.new dev' g' (fun _ => s * r) none = .ok ⟨g', fun _ => s * r, g'.sortedCloud, eq', nb'⟩)
    (hreg : Regular (⟨g, fun _ => r, g.sortedCloud, eq, nb⟩ : Nbh k ℝ))
    (hreg' : Regular (⟨g', fun _ => s * r, g'.sortedCloud, eq', nb'⟩ : Nbh k ℝ)) (out : List (Fin g.c.n))
    (hout : PoissonResult (⟨g, fun _ => r, g.sortedCloud, eq, nb⟩ : Nbh k ℝ) out) :
    SamplingResult (⟨g', fun _ => s * r, g'.sortedCloud, eq', nb'⟩ : Nbh k ℝ) 0
      ((poissonSample (⟨g, fun _ => r, g.sortedCloud, eq, nb⟩ : Nbh k ℝ) out).1.scale s) := by
  have hn : g'.c.n = g.c.n := by rw [eg]; rfl
  have hout := (C110_poisson_results dev _ _ _ hnew hreg _).1 hout
  obtain ⟨o1, o2⟩ := hout
  let φ : Fin g.c.n → Fin g'.c.n := fun q => g'.perm.symm (Fin.cast hn.symm (g.perm q))
  have hbb : ∀ i, g'.c.batch (Fin.cast hn.symm i) = g.c.batch i := by subst eg; intro i; rfl
  have hpp : ∀ i, g'.c.pts (Fin.cast hn.symm i) = fun d => s * g.c.pts i d := by subst eg; intro i; rfl
  have hb : ∀ q, g'.sortedBatch (φ q) = g.sortedBatch q := by
    intro q
    exact (congrArg g'.c.batch (Equiv.apply_symm_apply g'.perm _)).trans (hbb _)
  have hp : ∀ q, g'.sortedPts (φ q) = fun d => s * g.sortedPts q d := by
    intro q
    exact (congrArg g'.c.pts (Equiv.apply_symm_apply g'.perm _)).trans (hpp _)
  have hnl : ∀ a b, normLt (fun d => g'.sortedPts (φ b) d - g'.sortedPts (φ a) d) (s * r) ↔
      normLt (fun d => g.sortedPts b d - g.sortedPts a d) r := by
    intro a b
    rw [hp, hp]
    simp only [← mul_sub]
    exact normLt_scale _ _ s hs
  have hout' : PoissonResult (⟨g', fun _ => s * r, g'.sortedCloud, eq', nb'⟩ : Nbh k ℝ) (out.map φ) := by
    refine (C110_poisson_results dev' _ _ _ hnew' hreg' _).2 ⟨?_, ?_⟩
    · rw [List.pairwise_map]
      refine o1.imp fun {a b} hab => ?_
      rintro ⟨q1, q2⟩
      refine hab ⟨?_, (hnl a b).1 q2⟩
      have : g'.sortedBatch (φ b) = g'.sortedBatch (φ a) := q1
      rwa [hb, hb] at this
    · intro q
      obtain ⟨u, hu, u1, u2⟩ := o2 (g.perm.symm (Fin.cast hn (g'.perm q)))
      have hq : φ (g.perm.symm (Fin.cast hn (g'.perm q))) = q := by
        show g'.perm.symm (Fin.cast hn.symm (g.perm (g.perm.symm (Fin.cast hn (g'.perm q))))) = q
        rw [Equiv.apply_symm_apply]
        exact Equiv.symm_apply_apply g'.perm q
      refine ⟨φ u, List.mem_map_of_mem hu, ?_, ?_⟩
      · have := hb (g.perm.symm (Fin.cast hn (g'.perm q)))
        rw [hq] at this
        show g'.sortedBatch q = g'.sortedBatch (φ u)
        rw [this, hb]
        exact u1
      · have := (hnl u (g.perm.symm (Fin.cast hn (g'.perm q)))).2 u2
        rw [hq] at this
        exact this
  have hB : g'.c.B = g.c.B := by rw [eg]; rfl
  have hc : (poissonSample (⟨g', fun _ => s * r, g'.sortedCloud, eq', nb'⟩ : Nbh k ℝ) (out.map φ)).1 =
      (poissonSample (⟨g, fun _ => r, g.sortedCloud, eq, nb⟩ : Nbh k ℝ) out).1.scale s := by
    refine cloud_eq (List.length_map _) (fun i => ?_) (fun i => ?_) hB
    · show g'.sortedPts ((out.map φ).get i) = fun d => s * g.sortedPts (out.get (Fin.cast (List.length_map _) i)) d
      rw [← hp]
      exact congrArg g'.sortedPts (List.getElem_map φ)
    · show g'.sortedBatch ((out.map φ).get i) = g.sortedBatch (out.get (Fin.cast (List.length_map _) i))
      rw [← hb]
      exact congrArg g'.sortedBatch (List.getElem_map φ)
  rw [← hc]
  exact .poisson _ hout'

/-- **C170, sampling**: the possible Poisson samples of the scaled cloud are the scaled samples, whatever the border `eps` of the
bounding boxes is. -/
theorem C170_poisson (c : Cloud (Fin (k + 2) → ℝ)) (hv : c.Valid) (hn : 0 < c.n) {r eps eps' s : ℝ} (hr : 0 < r) (heps : 0 < eps)
    (heps' : 0 < eps') (hs : 0 < s) (dev : Device) (h : Nbh k ℝ)
    (hnew : Nbh.new dev (⟨c, fun _ => r, eps⟩ : Grid (k + 2) ℝ) (fun _ => r) none = .ok h) :
    ∃ h', Nbh.new .gpu (⟨c.scale s, fun _ => s * r, eps'⟩ : Grid (k + 2) ℝ) (fun _ => s * r) none = .ok h' ∧
      ∀ t, SamplingResult h 0 t → SamplingResult h' 0 (t.scale s) := by
  obtain ⟨h', hnew'⟩ := nbhNew_gpu (c.scale s) hv hn (mul_pos hs hr) heps'
  refine ⟨h', hnew', fun t ht => ?_⟩
  obtain ⟨e1, e2, e3, _, _⟩ := new_pairs hnew
  obtain ⟨e1', e2', e3', _, _⟩ := new_pairs hnew'
  have hreg : Regular h := by
    refine ⟨?_, ?_, ?_, ?_, ?_⟩
    · rw [e1]; exact hv
    · rw [e2]; exact hr
    · intro d; rw [e2]
    · rw [e1, e2]
    · rw [e1]; exact heps
  have hreg' : Regular h' := by
    refine ⟨?_, ?_, ?_, ?_, ?_⟩
    · rw [e1']; exact hv
    · rw [e2']; exact mul_pos hs hr
    · intro d; rw [e2']
    · rw [e1', e2']
    · rw [e1']; exact heps'
  cases ht with
  | poisson out hout =>
    obtain ⟨g, rad, smp, eq, nb⟩ := h
    obtain ⟨g', rad', smp', eq', nb'⟩ := h'
    simp only [Option.getD_none] at e1 e2 e3 e1' e2' e3'
    subst e1 e2 e3 e1' e2' e3'
    exact poisson_units _ _ hs rfl hnew hnew' hreg hreg' out hout

/-! ### Cell averages -/

theorem segMin_scale {n : ℕ} (x : Fin n → ℝ) (ids : Fin n → ℕ) (b : ℕ) {s : ℝ} (hs : 0 < s) :
    segMin (fun i => s * x i) ids b = (segMin x ids b).map (s * ·) := by
  cases e : segMin x ids b with
  | none =>
    rw [segMin_eq_none] at e
    exact segMin_eq_none.2 e
  | some v =>
    obtain ⟨⟨i, hi, hv⟩, hle⟩ := segMin_eq_some.1 e
    exact segMin_eq_some.2 ⟨⟨i, hi, by rw [hv]⟩, fun j hj => mul_le_mul_of_nonneg_left (hle j hj) hs.le⟩

theorem segMax_scale {n : ℕ} (x : Fin n → ℝ) (ids : Fin n → ℕ) (b : ℕ) {s : ℝ} (hs : 0 < s) :
    segMax (fun i => s * x i) ids b = (segMax x ids b).map (s * ·) := by
  cases e : segMax x ids b with
  | none =>
    rw [segMax_eq_none] at e
    exact segMax_eq_none.2 e
  | some v =>
    obtain ⟨⟨i, hi, hv⟩, hle⟩ := segMax_eq_some.1 e
    exact segMax_eq_some.2 ⟨⟨i, hi, by rw [hv]⟩, fun j hj => mul_le_mul_of_nonneg_left (hle j hj) hs.le⟩

theorem aabbMin_scale (eps : ℝ) (c : Cloud (Fin D → ℝ)) (b : ℕ) (d : Fin D) {s : ℝ} (hs : 0 < s) :
    aabbMin (s * eps) (c.scale s) b d = (aabbMin eps c b d).map (s * ·) := by
  unfold aabbMin
  refine (congrArg (Option.map _) (segMin_scale (fun i => c.pts i d) c.batch b hs)).trans ?_
  cases segMin (fun i => c.pts i d) c.batch b with
  | none => rfl
  | some v => simp only [Option.map_some, Option.some.injEq]; ring

theorem aabbMax_scale (eps : ℝ) (c : Cloud (Fin D → ℝ)) (b : ℕ) (d : Fin D) {s : ℝ} (hs : 0 < s) :
    aabbMax (s * eps) (c.scale s) b d = (aabbMax eps c b d).map (s * ·) := by
  unfold aabbMax
  refine (congrArg (Option.map _) (segMax_scale (fun i => c.pts i d) c.batch b hs)).trans ?_
  cases segMax (fun i => c.pts i d) c.batch b with
  | none => rfl
  | some v => simp only [Option.map_some, Option.some.injEq]; ring

/-- The grid with all lengths in the new unit, the border of the bounding boxes too. -/
noncomputable def Grid.inUnits (g : Grid D ℝ) (s : ℝ) : Grid D ℝ := ⟨g.c.scale s, fun d => s * g.cs d, s * g.eps⟩

theorem numCells_units (g : Grid D ℝ) {s : ℝ} (hs : 0 < s) : (g.inUnits s).numCells = g.numCells := by
  funext d
  unfold Grid.numCells
  congr 2
  funext b
  unfold Grid.batchNumCells
  have h1 : aabbMin (g.inUnits s).eps (g.inUnits s).c b d = (aabbMin g.eps g.c b d).map (s * ·) := aabbMin_scale _ _ _ _ hs
  have h2 : aabbMax (g.inUnits s).eps (g.inUnits s).c b d = (aabbMax g.eps g.c b d).map (s * ·) := aabbMax_scale _ _ _ _ hs
  rw [h1, h2]
  cases aabbMin g.eps g.c b d with
  | none => rfl
  | some lo =>
    cases aabbMax g.eps g.c b d with
    | none => rfl
    | some hi =>
      show ⌈(s * hi - s * lo) / (s * g.cs d)⌉.toNat = ⌈(hi - lo) / g.cs d⌉.toNat
      rw [← mul_sub, mul_div_mul_left _ _ hs.ne']

theorem key_units (g : Grid D ℝ) {s : ℝ} (hs : 0 < s) : (g.inUnits s).key = g.key := by
  funext i
  unfold Grid.key
  rw [numCells_units g hs]
  show cellKey g.numCells (g.c.batch i) _ = _
  congr 1
  funext d
  unfold Grid.cell
  rw [numCells_units g hs]
  show Grid.clampCell (aabbMin (s * g.eps) (g.c.scale s) (g.c.batch i) d) (s * g.c.pts i d) (s * g.cs d) _ = _
  rw [aabbMin_scale _ _ _ _ hs]
  cases aabbMin g.eps g.c (g.c.batch i) d with
  | none => rfl
  | some lo =>
    show min (⌊(s * g.c.pts i d - s * lo) / (s * g.cs d)⌋.toNat) _ = min (⌊(g.c.pts i d - lo) / g.cs d⌋.toNat) _
    rw [← mul_sub, mul_div_mul_left _ _ hs.ne']

theorem perm_units (g : Grid D ℝ) {s : ℝ} (hs : 0 < s) : (g.inUnits s).perm = g.perm := by
  unfold Grid.perm
  rw [key_units g hs]
  rfl

theorem sortedKey_units (g : Grid D ℝ) {s : ℝ} (hs : 0 < s) : (g.inUnits s).sortedKey = g.sortedKey := by
  funext i
  unfold Grid.sortedKey
  rw [key_units g hs, perm_units g hs]
  rfl

theorem sortedBatch_units (g : Grid D ℝ) {s : ℝ} (hs : 0 < s) : (g.inUnits s).sortedBatch = g.sortedBatch := by
  funext i
  unfold Grid.sortedBatch
  rw [perm_units g hs]
  rfl

theorem sortedPts_units (g : Grid D ℝ) {s : ℝ} (hs : 0 < s) : (g.inUnits s).sortedPts = fun q d => s * g.sortedPts q d := by
  funext q d
  unfold Grid.sortedPts
  rw [perm_units g hs]
  rfl

/-- **C170, cell averages**: with the border of the bounding boxes in the new unit too, the samples are the scaled samples. -/
theorem C170_average_partial (g : Grid D ℝ) {s : ℝ} (hs : 0 < s) (B : ℕ) : cellAverage (g.inUnits s) B = (cellAverage g B).scale s := by
  have hk : (g.inUnits s).keyList = g.keyList := by
    unfold Grid.keyList
    rw [sortedKey_units g hs]
    rfl
  have hseg : (g.inUnits s).segment = g.segment := by
    funext q
    unfold Grid.segment
    rw [hk]
  show averageOf (g.inUnits s).keyList (g.inUnits s).segment (g.inUnits s).sortedPts (g.inUnits s).sortedBatch B =
    (averageOf g.keyList g.segment g.sortedPts g.sortedBatch B).scale s
  rw [hk, hseg, sortedBatch_units g hs, sortedPts_units g hs]
  show (⟨_, _, _, _⟩ : Cloud (Fin D → ℝ)) = ⟨_, _, _, _⟩
  congr 1
  funext u d
  show segMean (fun q => s * g.sortedPts q d) g.segment u.val = s * segMean (fun q => g.sortedPts q d) g.segment u.val
  unfold segMean
  rw [← Finset.mul_sum, mul_div_assoc]

/-- Poisson disk sampling with any border of the bounding boxes in the new unit, or cell averages with the border in the new unit. -/
def UnitsMode (lower : String → String) (mode : String) (eps eps' s : ℝ) : Prop :=
  lower mode ∈ ["poisson", "poisson disk", "poisson_disk"] ∨
    lower mode ∈ ["average", "cell average", "cell_average"] ∧ eps' = s * eps

theorem levelStep_units {dev : Device} {eps eps' s r : ℝ} (heps : 0 < eps) (heps' : 0 < eps') (hs : 0 < s) (hr : 0 < r) {lower : String → String}
    {mode : String} (hmode : UnitsMode lower mode eps eps' s) {bs : Option (List ℕ)}
    {o o' : CloudObj (Fin (k + 2) → ℝ)} (hv : o.c.Valid) (hn : 0 < o.c.n) {cs : Fin (k + 2) → ℝ} {h : Nbh k ℝ}
    (hst : LevelStep dev eps lower mode bs o (oneSize r) (.ok (o', cs, h))) :
    ∃ h', LevelStep .gpu eps' lower mode bs (o.scale s) (oneSize (s * r)) (.ok (o'.scale s, fun _ => s * r, h')) := by
  cases hst with
  | ok l h c hl hnew hsr hb =>
    obtain ⟨l0, hl0, hvec⟩ := completeCellSizes_one (k := k) r
    rw [hl0] at hl
    cases hl
    obtain ⟨l1, hl1, hvec1⟩ := completeCellSizes_one (k := k) (s * r)
    rw [hvec] at hnew
    obtain ⟨h', hnew', hall⟩ := C170_poisson o.c hv hn hr heps heps' hs dev h hnew
    have h2 : SampleResult h' lower mode (.ok (c.scale s)) := by
      rcases hmode with hmode | ⟨hmode, he⟩
      · obtain ⟨out, ho, hc⟩ := ((C28_sample_modes_partial h lower mode).1 hmode _).1 hsr
        have hc := Except.ok.inj hc
        subst hc
        have h1 := hall _ (.poisson out ho)
        rw [(C28_sample_modes_partial h' lower mode).1 hmode]
        generalize ht : (poissonSample h out).1.scale s = t at h1
        cases h1 with
        | poisson out' ho' => exact ⟨out', ho', rfl⟩
      · have hc := Except.ok.inj (((C28_sample_modes_partial h lower mode).2.1 hmode _).1 hsr)
        rw [(C28_sample_modes_partial h' lower mode).2.1 hmode, hc]
        obtain ⟨e1, _, e3, _⟩ := new_pairs hnew
        obtain ⟨e1', _, e3', _⟩ := new_pairs hnew'
        have hB : h.sample.B = o.c.B := by rw [e3]; rfl
        have hB' : h'.sample.B = o.c.B := by rw [e3']; rfl
        rw [e1, e1', hB, hB', he]
        exact congrArg Except.ok (C170_average_partial (⟨o.c, fun _ => r, eps⟩ : Grid (k + 2) ℝ) hs o.c.B).symm
    have h3 := setBatchShape_scale (CloudObj.ofCloud c) s bs
    have h3' : (CloudObj.ofCloud (c.scale s)).setBatchShape bs =
      (((CloudObj.ofCloud c).setBatchShape bs).1,
        ((CloudObj.ofCloud c).setBatchShape bs).2.scale s) := h3
    refine ⟨h', ?_⟩
    have := LevelStep.ok (dev := .gpu) (eps := eps') (lower := lower) (mode := mode) (bs := bs) (o := o.scale s) (a := oneSize (s * r)) l1
      h' _ hl1 (by rw [hvec1]; exact hnew') h2 (by rw [h3']; exact hb)
    rw [h3', hvec1] at this
    exact this

theorem levels_units {dev : Device} {eps eps' s : ℝ} (heps : 0 < eps) (heps' : 0 < eps') (hs : 0 < s) {lower : String → String}
    {mode : String} (hmode : UnitsMode lower mode eps eps' s) {bs : Option (List ℕ)} :
    ∀ (rs : List ℝ) (hrs : ∀ r ∈ rs, 0 < r) (o : CloudObj (Fin (k + 2) → ℝ)) (hv : o.c.Valid) (hn : 0 < o.c.n)
    (ls : List (CloudObj (Fin (k + 2) → ℝ) × (Fin (k + 2) → ℝ) × Nbh k ℝ))
    (h : Levels dev eps lower mode bs o (rs.map oneSize) (.ok ls)),
    (∀ x ∈ ls, x.1.c.Valid ∧ 0 < x.1.c.n ∧ x.1.c.B = o.c.B) ∧
    ∃ ls', Levels .gpu eps' lower mode bs (o.scale s) ((rs.map (s * ·)).map oneSize) (.ok ls') ∧
      ls'.map (·.1) = (ls.map (·.1)).map (·.scale s) := by
  intro rs
  induction rs with
  | nil =>
    intro hrs o hv hn ls h
    cases h
    exact ⟨by simp, [], Levels.nil _, rfl⟩
  | cons r rs ih =>
    intro hrs o hv hn ls h
    have hr := hrs r (by simp)
    rw [List.map_cons] at h
    cases h with
    | cons _ _ _ o' cs nh rest hst hl =>
      have hcs : ∀ d, 0 < cs d := by
        obtain ⟨l, hl0, hvec⟩ := completeCellSizes_one (k := k) r
        cases hst with
        | ok l' _ _ hl' _ _ _ =>
          rw [hl0] at hl'
          cases hl'
          intro d
          rw [hvec]
          exact hr
      have hco := (levelStep_spec heps hv hst hcs).1
      have hn' : 0 < o'.c.n := by
        have h0 : 0 < o.c.countIn (o.c.batch ⟨0, hn⟩) := by
          unfold Cloud.countIn
          exact Finset.card_pos.2 ⟨⟨0, hn⟩, by simp⟩
        have := hco.keeps _ h0
        unfold Cloud.countIn at this
        obtain ⟨i, _⟩ := Finset.card_pos.1 this
        exact i.pos
      obtain ⟨h1, ls', h2, h3⟩ := ih (fun r hr => hrs r (by simp [hr])) o' hco.valid hn' rest hl
      obtain ⟨nh', h4⟩ := levelStep_units heps heps' hs hr hmode hv hn hst
      refine ⟨?_, (o'.scale s, fun _ => s * r, nh') :: ls', Levels.cons _ _ _ _ _ _ _ h4 h2, ?_⟩
      · intro x hx
        rcases List.mem_cons.1 hx with rfl | hx
        · exact ⟨hco.valid, hn', hco.batchSize⟩
        · obtain ⟨a, b, c⟩ := h1 x hx
          exact ⟨a, b, c.trans hco.batchSize⟩
      · rw [List.map_cons, h3]
        rfl

/-- **C170, hierarchies**: for every hierarchy of Poisson samples of a cloud there is a possible hierarchy of the scaled cloud, built
with the scaled radii, whose levels are the scaled levels; also for cell averages if the border of the bounding boxes scales along. -/
theorem C170_hierarchy {dev : Device} {eps eps' s : ℝ} (heps : 0 < eps) (heps' : 0 < eps') (hs : 0 < s) {lower : String → String}
    {mode : String} (hmode : UnitsMode lower mode eps eps' s)
    (o : CloudObj (Fin (k + 2) → ℝ)) (hv : o.c.Valid) (hn : 0 < o.c.n) (rs : List ℝ) (hrs : ∀ r ∈ rs, 0 < r) (H : Hier k ℝ)
    (hH : HierNew dev eps lower mode o (rs.map oneSize) (.ok H)) :
    ∃ H', HierNew .gpu eps' lower mode (o.scale s) ((rs.map (s * ·)).map oneSize) (.ok H') ∧
      H'.clouds = H.clouds.map (·.scale s) := by
  rcases hH with ⟨ls, hl, he⟩ | ⟨e, _, he⟩
  · have he := Except.ok.inj he
    subst he
    obtain ⟨_, ls', h2, h3⟩ := levels_units heps heps' hs hmode rs hrs o hv hn ls hl
    refine ⟨_, Or.inl ⟨ls', h2, rfl⟩, ?_⟩
    show o.scale s :: ls'.map (·.1) = o.scale s :: (ls.map (·.1)).map (·.scale s)
    rw [h3]
  · cases he

/-! ### The network of the tutorial -/

theorem flattenFeatures_scale {β : Type*} (o : CloudObj (Fin D → ℝ)) (s : ℝ) (blocks : List (List β)) :
    ((o.scale s).flattenFeatures blocks).1 = (o.flattenFeatures blocks).1 := by
  have hg : (o.scale s).getSizes = (o.getSizes.1, o.getSizes.2.scale s) := by
    obtain ⟨c, sz, b, sg, u⟩ := o
    cases sz with
    | some x => rfl
    | none =>
      cases b with
      | none => rfl
      | some sh =>
        have key : ∀ c' : Cloud (Fin D → ℝ), List.ofFn c'.batch = List.ofFn c.batch →
            CloudObj.getSizes ⟨c', none, some sh, sg, u⟩ =
            if sh.prod = (sizesOfIds (List.ofFn c.batch)).length then
              (.ok (sh, sizesOfIds (List.ofFn c.batch)), ⟨c', some (sh, sizesOfIds (List.ofFn c.batch)), some sh, sg, u⟩)
            else (.error .invalidArgument, ⟨c', some ([(sizesOfIds (List.ofFn c.batch)).length],
              sizesOfIds (List.ofFn c.batch)), some sh, sg, u⟩) := by
          intro c' e
          unfold CloudObj.getSizes
          dsimp only
          rw [e]
        rw [show (⟨c, none, some sh, sg, u⟩ : CloudObj (Fin D → ℝ)).scale s = ⟨c.scale s, none, some sh, sg, u⟩ from rfl,
          key (c.scale s) rfl, key c rfl]
        by_cases h : sh.prod = (sizesOfIds (List.ofFn c.batch)).length
        · rw [if_pos h, if_pos h]; rfl
        · rw [if_neg h, if_neg h]; rfl
  unfold CloudObj.flattenFeatures
  rw [hg]
  obtain ⟨r, o'⟩ := o.getSizes
  cases r with
  | error e => rfl
  | ok x =>
    obtain ⟨sh, sz⟩ := x
    dsimp only
    by_cases h : (flattenRows blocks sz).length = o.c.n
    · refine (congrArg Prod.fst (dif_pos h)).trans (Eq.trans ?_ (congrArg Prod.fst (dif_pos h)).symm)
      rfl
    · refine (congrArg Prod.fst (dif_neg h)).trans ?_
      rw [dif_neg h]
      rfl

/-- Specification: the network with all radii in the new unit. -/
noncomputable def NetTut.inUnits (s : ℝ) (N : NetTut D) : NetTut D where
  levels := N.levels.map fun l => ⟨l.conv.inUnits s, l.bn, s * l.sampleRadius, s * l.convRadius⟩
  last := N.last.inUnits s
  lastSampleRadius := s * N.lastSampleRadius
  lastConvRadius := s * N.lastConvRadius
  head := N.head

theorem netTutLoop_units (E : NetEnv) (hdev : E.dev = .gpu) (heps : 0 < E.eps) {e' : ℝ} (he' : 0 < e') (N : NetTut (k + 2))
    (hlast : N.last.Ok ∧ 0 < N.lastSampleRadius ∧ 0 < N.lastConvRadius) {s : ℝ} (hs : 0 < s) (B : ℕ) :
    ∀ (levels : List (LevelTut (k + 2))) (hl : ∀ l ∈ levels, l.conv.Ok ∧ 0 < l.sampleRadius ∧ 0 < l.convRadius)
    (os : List (CloudObj (Fin (k + 2) → ℝ))) (o : CloudObj (Fin (k + 2) → ℝ)) (f : Fin o.c.n → ℕ → ℝ)
    (ho : ∀ x ∈ o :: os, x.c.Valid ∧ 0 < x.c.n ∧ x.c.B = B)
    (p : CloudObj (Fin (k + 2) → ℝ)) (g : Fin p.c.n → ℕ → ℝ)
    (h : netTutLoop E N o f os levels = .ok ⟨p, g⟩),
    netTutLoop { E with eps := e' } (N.inUnits s) (o.scale s) f (os.map (·.scale s))
      (levels.map fun l => ⟨l.conv.inUnits s, l.bn, s * l.sampleRadius, s * l.convRadius⟩) = .ok ⟨p.scale s, g⟩ := by
  intro levels
  induction levels with
  | nil =>
    intro hl os o f ho p g h
    match os, h with
    | [], h => simp [netTutLoop] at h
    | [o'], h =>
      obtain ⟨a1, a2, a3⟩ := ho o (by simp)
      obtain ⟨b1, b2, b3⟩ := ho o' (by simp)
      rw [netTutLoop_single] at h
      refine (netTutLoop_single { E with eps := e' } (N.inUnits s) (o.scale s) f (o'.scale s)).trans ?_
      cases hc : N.last.call E o.c o'.c N.lastConvRadius f with
      | error e => rw [hc] at h; cases h
      | ok u =>
        rw [hc] at h
        have := NetConv.call_units E hdev heps he' hlast.1 hlast.2.2 a1 b1 (b3.trans a3.symm) a2 b2 hs f hc
        refine (congrArg (Except.bind · _) this).trans ?_
        cases h
        rfl
    | _ :: _ :: _, h => simp [netTutLoop] at h
  | cons l ls ih =>
    intro hl os o f ho p g h
    match os, h with
    | [], h => simp [netTutLoop] at h
    | o' :: os, h =>
      obtain ⟨a1, a2, a3⟩ := ho o (by simp)
      obtain ⟨b1, b2, b3⟩ := ho o' (by simp)
      obtain ⟨l1, l2, l3⟩ := hl l (by simp)
      rw [netTutLoop_cons] at h
      refine (netTutLoop_cons { E with eps := e' } (N.inUnits s) (o.scale s) (o'.scale s) f _ _ _).trans ?_
      cases hc : l.conv.call E o.c o'.c l.convRadius f with
      | error e => rw [hc] at h; cases h
      | ok u =>
        rw [hc] at h
        have := NetConv.call_units E hdev heps he' l1 l3 a1 b1 (b3.trans a3.symm) a2 b2 hs f hc
        have hi := ih (fun l hl' => hl l (by simp [hl'])) os o' (E.bnAct l.bn u) (fun x hx => ho x (List.mem_cons_of_mem _ hx)) p g h
        have e : ({ E with eps := e' } : NetEnv).bnAct l.bn u = E.bnAct l.bn u := rfl
        split
        · rename_i e2 he
          cases he.symm.trans this
        · rename_i g' he
          cases Except.ok.inj (he.symm.trans this)
          exact hi

theorem flattenRows_map {α β : Type*} (F : α → β) (blocks : List (List α)) (sizes : List ℕ) :
    flattenRows (blocks.map (List.map F)) sizes = (flattenRows blocks sizes).map F := by
  unfold flattenRows
  induction blocks generalizing sizes with
  | nil => rfl
  | cons b bs ih =>
    cases sizes with
    | nil => rfl
    | cons n ns =>
      simp only [List.map_cons, List.zip_cons_cons, List.flatMap_cons, List.map_append, List.map_take]
      rw [ih]

/-- Specification: the shapes with all coordinates in the new unit. -/
noncomputable def scaleShapes (s : ℝ) (points : List (List (Fin D → ℝ))) : List (List (Fin D → ℝ)) :=
  points.map (List.map fun p d => s * p d)

theorem newPadded_scale (V : ℕ) (points : List (List (Fin D → ℝ))) (s : ℝ) :
    CloudObj.newPadded [(scaleShapes s points).length] V (scaleShapes s points) none none =
      (CloudObj.newPadded [points.length] V points none none).map (·.scale s) := by
  have hlen : (scaleShapes s points).length = points.length := List.length_map _
  unfold CloudObj.newPadded
  rw [hlen]
  simp only [Option.getD_none, ne_eq, not_true_eq_false, if_false]
  have hfl := flattenRows_map (fun (p : Fin D → ℝ) d => s * p d) points (List.replicate [points.length].prod V)
  by_cases h : (repeatRange (List.replicate [points.length].prod V)).length = (flattenRows points (List.replicate [points.length].prod V)).length
  · have h' : (repeatRange (List.replicate [points.length].prod V)).length =
        (flattenRows (scaleShapes s points) (List.replicate [points.length].prod V)).length := by
      unfold scaleShapes
      rw [hfl, List.length_map]
      exact h
    rw [dif_pos h, dif_pos h']
    refine congrArg Except.ok ?_
    have : (⟨flattenRows (scaleShapes s points) (List.replicate [points.length].prod V), repeatRange (List.replicate [points.length].prod V),
          [points.length].prod⟩ : RawCloud _).toCloud h' =
        ((⟨flattenRows points (List.replicate [points.length].prod V), repeatRange (List.replicate [points.length].prod V),
          [points.length].prod⟩ : RawCloud _).toCloud h).scale s := by
      refine cloud_eq (h'.symm.trans h) (fun i => ?_) (fun i => rfl) rfl
      show (flattenRows (scaleShapes s points) (List.replicate [points.length].prod V))[i.val]'_ =
        fun d => s * ((flattenRows points (List.replicate [points.length].prod V))[i.val]'_) d
      have h3 : i.val < (flattenRows (scaleShapes s points) (List.replicate [points.length].prod V)).length := i.isLt
      have := List.getElem_of_eq hfl h3
      rw [List.getElem_map] at this
      exact this
    rw [this]
    rfl
  · have h' : ¬ (repeatRange (List.replicate [points.length].prod V)).length =
        (flattenRows (scaleShapes s points) (List.replicate [points.length].prod V)).length := by
      unfold scaleShapes
      rw [hfl, List.length_map]
      exact h
    rw [dif_neg h, dif_neg h']
    rfl

theorem tutorial_units (E : NetEnv) (hdev : E.dev = .gpu) (heps : 0 < E.eps) {e' : ℝ} (he' : 0 < e') (N : NetTut (k + 2)) (hN : N.Ok) {s : ℝ}
    (lower : String → String) (mode : String) (hmode : UnitsMode lower mode E.eps e' s) {V : ℕ} (hVpos : 0 < V)
    {points : List (List (Fin (k + 2) → ℝ))} (hV : ∀ p ∈ points, p.length = V) (hB : points ≠ []) (hs : 0 < s)
    (feats : List (List (ℕ → ℝ))) (rows : List (ℕ → ℝ))
    (h : N.Call E lower mode V points feats (.ok rows)) :
    (N.inUnits s).Call { E with eps := e' } lower mode V (scaleShapes s points) feats (.ok rows) := by
  have hP := paddedOk_full hV
  obtain ⟨o, ho⟩ := newPadded_returns hP
  obtain ⟨_, p2, p3, p4, p5, _, p7, _, p8⟩ := newPadded_spec hP.len hP.block hP.size ho
  have hBpos : 0 < points.length := List.length_pos_iff.2 hB
  have hno := padded_noEmpty hP ho (fun s hs => by rw [List.eq_of_mem_replicate hs]; exact hVpos)
  have hn : 0 < o.c.n := by
    obtain ⟨i, _⟩ := hno 0 (by omega)
    exact i.pos
  have hrs : ∀ r ∈ N.levels.map LevelTut.sampleRadius ++ [N.lastSampleRadius], 0 < r := by
    intro r hr
    rcases List.mem_append.1 hr with hr | hr
    · obtain ⟨l, hl, rfl⟩ := List.mem_map.1 hr
      exact (hN.levels l hl).2.1
    · rw [List.mem_singleton.1 hr]
      exact hN.last.2.1
  have hsz : (N.inUnits s).sizes = ((N.levels.map LevelTut.sampleRadius ++ [N.lastSampleRadius]).map (s * ·)).map oneSize := by
    unfold NetTut.sizes NetTut.inUnits oneSize
    simp [List.map_map, Function.comp_def]
  unfold NetTut.Call at h ⊢
  rw [newPadded_scale]
  rw [newPadded_noSizes, ho] at h ⊢
  dsimp only [Except.map] at h ⊢
  rcases h with ⟨e, _, he⟩ | ⟨H, hH, hr⟩
  · cases he
  rw [hdev] at hH
  have hH2 : HierNew .gpu E.eps lower mode o ((N.levels.map LevelTut.sampleRadius ++ [N.lastSampleRadius]).map oneSize) (.ok H) := hH
  right
  rw [hsz]
  obtain ⟨H', hH', hcl⟩ := C170_hierarchy heps he' hs hmode o p3 hn _ hrs H hH2
  refine ⟨H', by rw [hdev]; exact hH', ?_⟩
  have hgood : ∃ os, H.clouds = o :: os ∧ ∀ x ∈ o :: os, x.c.Valid ∧ 0 < x.c.n ∧ x.c.B = o.c.B := by
    rcases hH2 with ⟨ls, hl, he⟩ | ⟨e, _, he⟩
    · have he := Except.ok.inj he
      subst he
      obtain ⟨h1, _⟩ := levels_units heps he' hs hmode _ hrs o p3 hn ls hl
      refine ⟨_, rfl, fun x hx => ?_⟩
      rcases List.mem_cons.1 hx with rfl | hx
      · exact ⟨p3, hn, rfl⟩
      · obtain ⟨y, hy, rfl⟩ := List.mem_map.1 hx
        exact h1 y hy
    · cases he
  obtain ⟨os, hc, hgood⟩ := hgood
  rw [hc, List.map_cons] at hcl
  unfold NetTut.logits at hr ⊢
  rw [hc] at hr
  rw [hcl]
  dsimp only at hr ⊢
  rw [flattenFeatures_scale]
  cases hf : (o.flattenFeatures feats).1 with
  | error e => rw [hf] at hr; cases hr
  | ok f0 =>
    rw [hf] at hr
    dsimp only at hr ⊢
    cases hl : netTutLoop E N o f0 os N.levels with
    | error e => rw [hl] at hr; cases hr
    | ok x =>
      obtain ⟨p, g⟩ := x
      rw [hl] at hr
      have hu := netTutLoop_units E hdev heps he' N hN.last hs o.c.B N.levels hN.levels os o f0 hgood p g hl
      split
      · rename_i e he
        cases he.symm.trans hu
      · rename_i p' g' he
        cases Except.ok.inj (he.symm.trans hu)
        exact hr

theorem NetTut.inUnits_ok {s : ℝ} (hs : 0 < s) {N : NetTut (k + 2)} (h : N.Ok) : (N.inUnits s).Ok := by
  refine ⟨⟨NetConv.inUnits_ok h.last.1, mul_pos hs h.last.2.1, mul_pos hs h.last.2.2⟩, fun l hl => ?_⟩
  obtain ⟨l', hl', rfl⟩ := List.mem_map.1 hl
  obtain ⟨a, b, c⟩ := h.levels l' hl'
  exact ⟨NetConv.inUnits_ok a, mul_pos hs b, mul_pos hs c⟩

theorem NetTut.inUnits_back {s : ℝ} (hs : 0 < s) (N : NetTut D) : (N.inUnits s).inUnits s⁻¹ = N := by
  obtain ⟨ls, la, r1, r2, hd⟩ := N
  unfold NetTut.inUnits
  simp only [List.map_map, Function.comp_def, NetConv.inUnits_back hs, inv_mul_cancel_left₀ hs.ne', NetTut.mk.injEq, and_true]
  exact List.map_id' _

theorem scaleShapes_back {s : ℝ} (hs : 0 < s) (points : List (List (Fin D → ℝ))) : scaleShapes s⁻¹ (scaleShapes s points) = points := by
  unfold scaleShapes
  simp only [List.map_map, Function.comp_def, inv_mul_cancel_left₀ hs.ne', List.map_id']

theorem tutorial_units_iff (E : NetEnv) (hdev : E.dev = .gpu) (heps : 0 < E.eps) {e' : ℝ} (he' : 0 < e') (N : NetTut (k + 2)) (hN : N.Ok) {s : ℝ}
    (lower : String → String) (mode : String) (hmode : UnitsMode lower mode E.eps e' s) {V : ℕ} (hVpos : 0 < V)
    {points : List (List (Fin (k + 2) → ℝ))} (hV : ∀ p ∈ points, p.length = V) (hB : points ≠ []) (hs : 0 < s)
    (feats : List (List (ℕ → ℝ))) (rows : List (ℕ → ℝ)) :
    (N.inUnits s).Call { E with eps := e' } lower mode V (scaleShapes s points) feats (.ok rows) ↔
      N.Call E lower mode V points feats (.ok rows) := by
  constructor
  · intro h
    have hV' : ∀ p ∈ scaleShapes s points, p.length = V := by
      intro p hp
      obtain ⟨q, hq, rfl⟩ := List.mem_map.1 hp
      rw [List.length_map]
      exact hV q hq
    have hmode' : UnitsMode lower mode e' E.eps s⁻¹ := by
      rcases hmode with hm | ⟨hm, he⟩
      · exact Or.inl hm
      · exact Or.inr ⟨hm, by rw [he, inv_mul_cancel_left₀ hs.ne']⟩
    have := tutorial_units { E with eps := e' } hdev he' heps (N.inUnits s) (NetTut.inUnits_ok hs hN) lower mode hmode' hVpos hV'
      (by simpa [scaleShapes] using hB) (inv_pos.2 hs) feats rows h
    rw [NetTut.inUnits_back hs, scaleShapes_back hs] at this
    exact this
  · exact tutorial_units E hdev heps he' N hN lower mode hmode hVpos hV hB hs feats rows

/-- **C170, the network of the tutorial**: with the points and all radii in another unit of length (and the first kernel layer of
`PointConv` divided by the factor) the same logits are possible, in training and in evaluation, whatever the border of the bounding
boxes is in either unit. -/
theorem C170_tutorial (E : NetEnv) (hdev : E.dev = .gpu) (heps : 0 < E.eps) {e' : ℝ} (he' : 0 < e') (N : NetTut (k + 2)) (hN : N.Ok)
    (lower : String → String) (mode : String) (hmode : lower mode ∈ ["poisson", "poisson disk", "poisson_disk"]) {V : ℕ} (hVpos : 0 < V)
    {points : List (List (Fin (k + 2) → ℝ))} (hV : ∀ p ∈ points, p.length = V) (hB : points ≠ []) {s : ℝ} (hs : 0 < s)
    (feats : List (List (ℕ → ℝ))) (rows : List (ℕ → ℝ)) :
    (N.inUnits s).Call { E with eps := e' } lower mode V (scaleShapes s points) feats (.ok rows) ↔
      N.Call E lower mode V points feats (.ok rows) :=
  tutorial_units_iff E hdev heps he' N hN lower mode (Or.inl hmode) hVpos hV hB hs feats rows

/-- **C170, the network of the tutorial with cell averages**: the same if the border of the bounding boxes is given in the new unit
too.  Missing: the code uses the same number `1e-9` in every unit (see `C170_average_false`). -/
theorem C170_tutorial_average_partial (E : NetEnv) (hdev : E.dev = .gpu) (heps : 0 < E.eps) (N : NetTut (k + 2)) (hN : N.Ok)
    (lower : String → String) (mode : String) (hmode : lower mode ∈ ["average", "cell average", "cell_average"]) {V : ℕ} (hVpos : 0 < V)
    {points : List (List (Fin (k + 2) → ℝ))} (hV : ∀ p ∈ points, p.length = V) (hB : points ≠ []) {s : ℝ} (hs : 0 < s)
    (feats : List (List (ℕ → ℝ))) (rows : List (ℕ → ℝ)) :
    (N.inUnits s).Call { E with eps := s * E.eps } lower mode V (scaleShapes s points) feats (.ok rows) ↔
      N.Call E lower mode V points feats (.ok rows) :=
  tutorial_units_iff E hdev heps (mul_pos hs heps) N hN lower mode (Or.inr ⟨hmode, rfl⟩) hVpos hV hB hs feats rows

end

/-- Two points in a row whose distance is the cell size minus the border of the bounding box. -/
def unitRow (s : ℚ) : Cloud (Fin 2 → ℚ) :=
  ⟨2, fun i d => if i.val = 1 ∧ d.val = 0 then s * (1 - 1 / 10 ^ 9) else 0, fun _ => 0, 1⟩

/-- **C170, negation for cell averages**: with the border `1e-9` of the code in every unit, two points are in different cells, and in
one cell if all lengths are doubled: two samples, and one. -/
theorem C170_average_false :
    (cellAverage (⟨unitRow 1, fun _ => 1, 1 / 10 ^ 9⟩ : Grid 2 ℚ) 1).n = 2 ∧
    (cellAverage (⟨unitRow 2, fun _ => 2 * 1, 1 / 10 ^ 9⟩ : Grid 2 ℚ) 1).n = 1 ∧ unitRow 2 = (unitRow 1).scale 2 := by
  refine ⟨by decide +kernel, by decide +kernel, ?_⟩
  refine cloud_eq (c := (unitRow 1).scale 2) rfl (fun i => ?_) (fun i => rfl) rfl
  funext d
  show (if i.val = 1 ∧ d.val = 0 then 2 * (1 - 1 / 10 ^ 9) else 0 : ℚ) = 2 * (if i.val = 1 ∧ d.val = 0 then 1 * (1 - 1 / 10 ^ 9) else 0)
  split <;> norm_num

/-- The hypotheses of `C170_tutorial` are met: the notebook's network in meters and in centimeters. -/
example : ∃ rows, exTut.Call exEnv id "poisson" 2 [[![0, 0], ![3, 0]], [![2, 0], ![2, 5]]]
      [[fun _ => 1, fun _ => 0], [fun _ => 2, fun _ => 3]] (.ok rows) ∧
    (exTut.inUnits 100).Call exEnv id "poisson" 2 (scaleShapes 100 [[![0, 0], ![3, 0]], [![2, 0], ![2, 5]]])
      [[fun _ => 1, fun _ => 0], [fun _ => 2, fun _ => 3]] (.ok rows) := by
  have he : 0 < exEnv.eps := by norm_num [exEnv]
  have hV : ∀ s ∈ ([[![0, 0], ![3, 0]], [![2, 0], ![2, 5]]] : List (List (Fin 2 → ℝ))), s.length = 2 := by simp
  obtain ⟨rows, h⟩ := (C129_returns exEnv rfl he exTut exTut_ok id "poisson" (by simp) hV (by simp) (by simp)
    (feats := [[fun _ => 1, fun _ => 0], [fun _ => 2, fun _ => 3]]) rfl (by simp)).1
  exact ⟨rows, h, (C170_tutorial exEnv rfl he (e' := exEnv.eps) he exTut exTut_ok id "poisson" (by simp) (by norm_num) hV (by simp)
    (by norm_num) _ _).2 h⟩

end PC
