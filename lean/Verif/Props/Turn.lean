import Verif.Props.Units2
import Verif.Props.Rotate
import Mathlib.LinearAlgebra.Matrix.NonsingularInverse

/-!
# Turning the shapes and the filters of a network (C171)
-/

set_option linter.unusedVariables false
set_option linter.unusedSectionVars false

namespace PC

section
variable {k D : ℕ}

/-! ### The matrix and its inverse -/

/-- Specification: the transposed matrix. -/
def flipped (R : Fin D → Fin D → ℝ) (i j : Fin D) : ℝ := R j i

theorem flipped_orthonormal {R : Fin D → Fin D → ℝ} (hR : Orthonormal' R) : Orthonormal' (flipped R) := by
  have h : (Matrix.of R).transpose * Matrix.of R = 1 := by
    ext d e
    rw [Matrix.mul_apply, Matrix.one_apply]
    exact hR d e
  have h' := mul_eq_one_comm.1 h
  intro d e
  have := congrFun (congrFun h' d) e
  rw [Matrix.mul_apply, Matrix.one_apply] at this
  exact this

theorem turn_back {R : Fin D → Fin D → ℝ} (hR : Orthonormal' R) (x : Fin D → ℝ) : turn (flipped R) (turn R x) = x := by
  funext i
  unfold turn flipped
  simp only [Finset.mul_sum]
  rw [Finset.sum_comm]
  have : ∀ y, ∑ x_1, R x_1 i * (R x_1 y * x y) = (if i = y then 1 else 0) * x y := by
    intro y
    rw [← hR i y, Finset.sum_mul]
    exact Finset.sum_congr rfl (fun j _ => by ring)
  simp only [this]
  simp

theorem turnRows_back {R : Fin D → Fin D → ℝ} (hR : Orthonormal' R) (w : ℕ → ℕ → ℝ) : turnRows (flipped R) (turnRows R w) = w := by
  funext i o
  unfold turnRows
  by_cases h : i < D
  · rw [dif_pos h]
    have : (fun d : Fin D => if h : d.val < D then turn R (fun d => w d.val o) ⟨d.val, h⟩ else w d.val o) = turn R (fun d => w d.val o) := by
      funext d
      rw [dif_pos d.isLt]
    rw [this, turn_back hR]
  · rw [dif_neg h, dif_neg h]

/-! ### Layers -/

/-- Specification: the layer with its filters turned. -/
noncomputable def NetConv.turn (R : Fin D → Fin D → ℝ) : NetConv D → NetConv D
  | .mc L => .mc (L.turn R)
  | .pc L => .pc (L.turn R)
  | .kp L => .kp (L.turn R)

theorem NetConv.turn_ok {R : Fin D → Fin D → ℝ} {L : NetConv D} (h : L.Ok) : (L.turn R).Ok := by
  cases L <;> exact h

theorem NetConv.turn_back {R : Fin D → Fin D → ℝ} (hR : Orthonormal' R) (L : NetConv D) : (L.turn R).turn (flipped R) = L := by
  cases L with
  | mc L =>
    unfold NetConv.turn MCLayer.turn
    obtain ⟨a, b, c, layers, d⟩ := L
    cases layers with
    | nil => rfl
    | cons l ls =>
      dsimp only
      simp only [turnRows_back hR]
  | pc L =>
    unfold NetConv.turn PCLayer.turn
    simp only [turnRows_back hR]
  | kp L =>
    unfold NetConv.turn KPLayer.turn
    obtain ⟨a, b, c, kp, e, f, offs⟩ := L
    dsimp only
    simp only [PC.turn_back hR, NetConv.kp.injEq, KPLayer.mk.injEq, true_and]
    cases offs with
    | none => rfl
    | some wo =>
      simp only [Option.map_some, Option.some.injEq]
      funext x y
      by_cases h : 0 < D
      · simp only [dif_pos h]
        have : (fun d : Fin D => PC.turn R (fun d' => wo x ((y / D * D + d.val) / D * D + d'.val)) ⟨(y / D * D + d.val) % D, Nat.mod_lt _ h⟩) =
            PC.turn R (fun d' => wo x (y / D * D + d'.val)) := by
          funext d
          have e1 : (y / D * D + d.val) / D = y / D := by
            rw [mul_comm, Nat.mul_add_div h, Nat.div_eq_of_lt d.isLt, add_zero]
          have e2 : (y / D * D + d.val) % D = d.val := by
            rw [mul_comm, Nat.mul_add_mod, Nat.mod_eq_of_lt d.isLt]
          have e3 : (⟨(y / D * D + d.val) % D, Nat.mod_lt _ h⟩ : Fin D) = d := Fin.ext e2
          rw [e3, e1]
        rw [this, PC.turn_back hR]
        exact congrArg (wo x) (Nat.div_add_mod' y D)
      · simp only [dif_neg h]

theorem NetConv.call_turn (E : NetEnv) (hker : E.ker = gauss) (hdev : E.dev = .gpu) (heps : 0 < E.eps) {L : NetConv (k + 2)} (hL : L.Ok)
    {cin cout : Cloud (Fin (k + 2) → ℝ)} {radius : ℝ} (hr : 0 < radius) (hv : cin.Valid) (hv' : cout.Valid)
    (hB : cout.B = cin.B) (hn : 0 < cin.n) (hn' : 0 < cout.n) {R : Fin (k + 2) → Fin (k + 2) → ℝ} (hR : Orthonormal' R)
    (f : Fin cin.n → ℕ → ℝ) {g : Fin cout.n → ℕ → ℝ} (h : L.call E cin cout radius f = .ok g) :
    (L.turn R).call E (cin.turn R) (cout.turn R) radius f = .ok g := by
  have ok : LayerOk cin cout radius E.eps := ⟨hv, hr, heps⟩
  obtain ⟨g', h'⟩ := NetConv.call_returns E hdev heps (NetConv.turn_ok (R := R) hL)
    (cin := cin.turn R) (cout := cout.turn R) hr hv hv' hB hn hn' f
  rw [h']
  refine congrArg Except.ok ?_
  cases L with
  | mc L =>
    unfold NetConv.call at h
    unfold NetConv.turn NetConv.call at h'
    dsimp only at h h'
    rw [hker] at h h'
    exact C119_mcconv E.act E.dev E.dev E.eps L cin cout radius _ ok R hR f g g' h h'
  | pc L =>
    unfold NetConv.call at h
    unfold NetConv.turn NetConv.call at h'
    dsimp only at h h'
    rw [hker] at h h'
    exact C119_pointconv E.act E.dev E.dev E.eps L cin cout radius _ ok R hR f g g' h h'
  | kp L =>
    unfold NetConv.call at h
    unfold NetConv.turn NetConv.call at h'
    dsimp only at h h'
    split at h
    · cases h
    rename_i n out e1
    split at h
    swap
    · cases h
    split at h'
    · cases h'
    rename_i n' out' e1'
    split at h'
    swap
    · cases h'
    cases Except.ok.inj h
    cases Except.ok.inj h'
    funext c o
    exact (C119_kpconv E.dev E.dev E.eps L cin cout radius ok none hL.1 hL.2.1 hL.2.2 R hR f _ _ e1 e1').2 c o

/-! ### Sampling and hierarchies -/

/-- The object of the turned cloud. -/
noncomputable def CloudObj.turn (o : CloudObj (Fin D → ℝ)) (R : Fin D → Fin D → ℝ) : CloudObj (Fin D → ℝ) := { o with c := o.c.turn R }

theorem setBatchShape_turn (o : CloudObj (Fin D → ℝ)) (R : Fin D → Fin D → ℝ) (bs : Option (List ℕ)) :
    (o.turn R).setBatchShape bs = ((o.setBatchShape bs).1, (o.setBatchShape bs).2.turn R) := by
  obtain ⟨c, sz, b, sg, u⟩ := o
  cases bs with
  | none => rfl
  | some sh =>
    have key : ∀ c' : Cloud (Fin D → ℝ), c'.B = c.B → CloudObj.setBatchShape ⟨c', sz, b, sg, u⟩ (some sh) =
        if sh.prod = c.B then
          match sz with
          | none => (.ok (), ⟨c', none, some sh, some sh, u⟩)
          | some x => if sh.prod = x.2.length then (.ok (), ⟨c', some (sh, x.2), some sh, some sh, u⟩)
            else (.error .invalidArgument, ⟨c', sz, some sh, some sh, u⟩)
        else (.error .invalidArgument, ⟨c', sz, b, sg, u⟩) := by
      intro c' e
      unfold CloudObj.setBatchShape
      dsimp only
      rw [e]
      cases sz <;> rfl
    have h1 := key (c.turn R) rfl
    rw [show (⟨c, sz, b, sg, u⟩ : CloudObj (Fin D → ℝ)).turn R = ⟨c.turn R, sz, b, sg, u⟩ from rfl, h1, key c rfl]
    by_cases hB : sh.prod = c.B
    · rw [if_pos hB, if_pos hB]
      cases sz with
      | none => rfl
      | some x =>
        dsimp only
        by_cases hs : sh.prod = x.2.length
        · rw [if_pos hs, if_pos hs]; rfl
        · rw [if_neg hs, if_neg hs]; rfl
    · rw [if_neg hB, if_neg hB]
      rfl

/-- The grid of the turned cloud. -/
noncomputable abbrev turnGrid (g : Grid (k + 2) ℝ) (R : Fin (k + 2) → Fin (k + 2) → ℝ) : Grid (k + 2) ℝ := ⟨g.c.turn R, g.cs, g.eps⟩

theorem poisson_turn {dev dev' : Device} (g g' : Grid (k + 2) ℝ) {r : ℝ} {R : Fin (k + 2) → Fin (k + 2) → ℝ} (hR : Orthonormal' R)
    (eg : g' = turnGrid g R)
    {eq eq' : Bool} {nb : Pairs g.c.n g.sortedCloud.n} {nb' : Pairs g'.c.n g'.sortedCloud.n}
    (hnew : Nbh.new dev g (fun _ => r) none = .ok ⟨g, fun _ => r, g.sortedCloud, eq, nb⟩)
    (hnew' : Nbh.new dev' g' (fun _ => r) none = .ok ⟨g', fun _ => r, g'.sortedCloud, eq', nb'⟩)
    (hreg : Regular (⟨g, fun _ => r, g.sortedCloud, eq, nb⟩ : Nbh k ℝ))
    (hreg' : Regular (⟨g', fun _ => r, g'.sortedCloud, eq', nb'⟩ : Nbh k ℝ)) (out : List (Fin g.c.n))
    (hout : PoissonResult (⟨g, fun _ => r, g.sortedCloud, eq, nb⟩ : Nbh k ℝ) out) :
    SamplingResult (⟨g', fun _ => r, g'.sortedCloud, eq', nb'⟩ : Nbh k ℝ) 0
      ((poissonSample (⟨g, fun _ => r, g.sortedCloud, eq, nb⟩ : Nbh k ℝ) out).1.turn R) := by
  have hn : g'.c.n = g.c.n := by rw [eg]; rfl
  have hout := (C110_poisson_results dev _ _ _ hnew hreg _).1 hout
  obtain ⟨o1, o2⟩ := hout
  let φ : Fin g.c.n → Fin g'.c.n := fun q => g'.perm.symm (Fin.cast hn.symm (g.perm q))
  have hbb : ∀ i, g'.c.batch (Fin.cast hn.symm i) = g.c.batch i := by subst eg; intro i; rfl
  have hpp : ∀ i, g'.c.pts (Fin.cast hn.symm i) = turn R (g.c.pts i) := by subst eg; intro i; rfl
  have hb : ∀ q, g'.sortedBatch (φ q) = g.sortedBatch q := by
    intro q
    exact (congrArg g'.c.batch (Equiv.apply_symm_apply g'.perm _)).trans (hbb _)
  have hp : ∀ q, g'.sortedPts (φ q) = turn R (g.sortedPts q) := by
    intro q
    exact (congrArg g'.c.pts (Equiv.apply_symm_apply g'.perm _)).trans (hpp _)
  have hnl : ∀ a b, normLt (fun d => g'.sortedPts (φ b) d - g'.sortedPts (φ a) d) (r) ↔
      normLt (fun d => g.sortedPts b d - g.sortedPts a d) r := by
    intro a b
    rw [hp, hp]
    simp only [turn_sub]
    exact turn_normLt hR _ r
  have hout' : PoissonResult (⟨g', fun _ => r, g'.sortedCloud, eq', nb'⟩ : Nbh k ℝ) (out.map φ) := by
    refine (C110_poisson_results dev' _ _ _ hnew' hreg' _).2 ⟨?_, ?_⟩
    · rw [List.pairwise_map]
      refine o1.imp fun {a b} hab => ?_
      rintro ⟨q1, q2⟩
      refine hab ⟨?_, (hnl a b).1 q2⟩
      have : g'.sortedBatch (φ b) = g'.sortedBatch (φ a) := q1
      rwa [hb, hb] at this
    · intro q
      obtain ⟨u, hu, u1, u2⟩ := o2 (g.perm.symm (Fin.cast hn (g'.perm q)))
      have hq : φ (g.perm.symm (Fin.cast hn (g'.perm q))) = q := by
        show g'.perm.symm (Fin.cast hn.symm (g.perm (g.perm.symm (Fin.cast hn (g'.perm q))))) = q
        rw [Equiv.apply_symm_apply]
        exact Equiv.symm_apply_apply g'.perm q
      refine ⟨φ u, List.mem_map_of_mem hu, ?_, ?_⟩
      · have := hb (g.perm.symm (Fin.cast hn (g'.perm q)))
        rw [hq] at this
        show g'.sortedBatch q = g'.sortedBatch (φ u)
        rw [this, hb]
        exact u1
      · have := (hnl u (g.perm.symm (Fin.cast hn (g'.perm q)))).2 u2
        rw [hq] at this
        exact this
  have hB : g'.c.B = g.c.B := by rw [eg]; rfl
  have hc : (poissonSample (⟨g', fun _ => r, g'.sortedCloud, eq', nb'⟩ : Nbh k ℝ) (out.map φ)).1 =
      (poissonSample (⟨g, fun _ => r, g.sortedCloud, eq, nb⟩ : Nbh k ℝ) out).1.turn R := by
    refine cloud_eq (List.length_map _) (fun i => ?_) (fun i => ?_) hB
    · show g'.sortedPts ((out.map φ).get i) = turn R (g.sortedPts (out.get (Fin.cast (List.length_map _) i)))
      rw [← hp]
      exact congrArg g'.sortedPts (List.getElem_map φ)
    · show g'.sortedBatch ((out.map φ).get i) = g.sortedBatch (out.get (Fin.cast (List.length_map _) i))
      rw [← hb]
      exact congrArg g'.sortedBatch (List.getElem_map φ)
  rw [← hc]
  exact .poisson _ hout'

/-- **C171, sampling**: every possible Poisson sample of a cloud, turned, is a possible sample of the turned cloud, although the
cells of the grid do not turn along. -/
theorem C171_poisson (c : Cloud (Fin (k + 2) → ℝ)) (hv : c.Valid) (hn : 0 < c.n) {r eps : ℝ} (hr : 0 < r) (heps : 0 < eps)
    {R : Fin (k + 2) → Fin (k + 2) → ℝ} (hR : Orthonormal' R) (dev : Device) (h : Nbh k ℝ)
    (hnew : Nbh.new dev (⟨c, fun _ => r, eps⟩ : Grid (k + 2) ℝ) (fun _ => r) none = .ok h) :
    ∃ h', Nbh.new .gpu (⟨c.turn R, fun _ => r, eps⟩ : Grid (k + 2) ℝ) (fun _ => r) none = .ok h' ∧
      ∀ t, SamplingResult h 0 t → SamplingResult h' 0 (t.turn R) := by
  obtain ⟨h', hnew'⟩ := nbhNew_gpu (c.turn R) hv hn hr heps
  refine ⟨h', hnew', fun t ht => ?_⟩
  obtain ⟨e1, e2, e3, _, _⟩ := new_pairs hnew
  obtain ⟨e1', e2', e3', _, _⟩ := new_pairs hnew'
  have hreg : Regular h := by
    refine ⟨?_, ?_, ?_, ?_, ?_⟩
    · rw [e1]; exact hv
    · rw [e2]; exact hr
    · intro d; rw [e2]
    · rw [e1, e2]
    · rw [e1]; exact heps
  have hreg' : Regular h' := by
    refine ⟨?_, ?_, ?_, ?_, ?_⟩
    · rw [e1']; exact hv
    · rw [e2']; exact hr
    · intro d; rw [e2']
    · rw [e1', e2']
    · rw [e1']; exact heps
  cases ht with
  | poisson out hout =>
    obtain ⟨g, rad, smp, eq, nb⟩ := h
    obtain ⟨g', rad', smp', eq', nb'⟩ := h'
    simp only [Option.getD_none] at e1 e2 e3 e1' e2' e3'
    subst e1 e2 e3 e1' e2' e3'
    exact poisson_turn _ _ hR rfl hnew hnew' hreg hreg' out hout

theorem levelStep_turn {dev : Device} {eps r : ℝ} (heps : 0 < eps) {R : Fin (k + 2) → Fin (k + 2) → ℝ} (hR : Orthonormal' R) (hr : 0 < r) {lower : String → String}
    {mode : String} (hmode : lower mode ∈ ["poisson", "poisson disk", "poisson_disk"]) {bs : Option (List ℕ)}
    {o o' : CloudObj (Fin (k + 2) → ℝ)} (hv : o.c.Valid) (hn : 0 < o.c.n) {cs : Fin (k + 2) → ℝ} {h : Nbh k ℝ}
    (hst : LevelStep dev eps lower mode bs o (oneSize r) (.ok (o', cs, h))) :
    ∃ h', LevelStep .gpu eps lower mode bs (o.turn R) (oneSize (r)) (.ok (o'.turn R, fun _ => r, h')) := by
  cases hst with
  | ok l h c hl hnew hsr hb =>
    obtain ⟨l0, hl0, hvec⟩ := completeCellSizes_one (k := k) r
    rw [hl0] at hl
    cases hl
    obtain ⟨l1, hl1, hvec1⟩ := completeCellSizes_one (k := k) (r)
    rw [hvec] at hnew
    obtain ⟨h', hnew', hall⟩ := C171_poisson o.c hv hn hr heps hR dev h hnew
    have h2 : SampleResult h' lower mode (.ok (c.turn R)) := by
      obtain ⟨out, ho, hc⟩ := ((C28_sample_modes_partial h lower mode).1 hmode _).1 hsr
      have hc := Except.ok.inj hc
      subst hc
      have h1 := hall _ (.poisson out ho)
      rw [(C28_sample_modes_partial h' lower mode).1 hmode]
      generalize ht : (poissonSample h out).1.turn R = t at h1
      cases h1 with
      | poisson out' ho' => exact ⟨out', ho', rfl⟩
    have h3 := setBatchShape_turn (CloudObj.ofCloud c) R bs
    have h3' : (CloudObj.ofCloud (c.turn R)).setBatchShape bs =
      (((CloudObj.ofCloud c).setBatchShape bs).1,
        ((CloudObj.ofCloud c).setBatchShape bs).2.turn R) := h3
    refine ⟨h', ?_⟩
    have := LevelStep.ok (dev := .gpu) (eps := eps) (lower := lower) (mode := mode) (bs := bs) (o := o.turn R) (a := oneSize (r)) l1
      h' _ hl1 (by rw [hvec1]; exact hnew') h2 (by rw [h3']; exact hb)
    rw [h3', hvec1] at this
    exact this

theorem levels_turn {dev : Device} {eps : ℝ} (heps : 0 < eps) {R : Fin (k + 2) → Fin (k + 2) → ℝ} (hR : Orthonormal' R) {lower : String → String}
    {mode : String} (hmode : lower mode ∈ ["poisson", "poisson disk", "poisson_disk"]) {bs : Option (List ℕ)} :
    ∀ (rs : List ℝ) (hrs : ∀ r ∈ rs, 0 < r) (o : CloudObj (Fin (k + 2) → ℝ)) (hv : o.c.Valid) (hn : 0 < o.c.n)
    (ls : List (CloudObj (Fin (k + 2) → ℝ) × (Fin (k + 2) → ℝ) × Nbh k ℝ))
    (h : Levels dev eps lower mode bs o (rs.map oneSize) (.ok ls)),
    (∀ x ∈ ls, x.1.c.Valid ∧ 0 < x.1.c.n ∧ x.1.c.B = o.c.B) ∧
    ∃ ls', Levels .gpu eps lower mode bs (o.turn R) (rs.map oneSize) (.ok ls') ∧
      ls'.map (·.1) = (ls.map (·.1)).map (·.turn R) := by
  intro rs
  induction rs with
  | nil =>
    intro hrs o hv hn ls h
    cases h
    exact ⟨by simp, [], Levels.nil _, rfl⟩
  | cons r rs ih =>
    intro hrs o hv hn ls h
    have hr := hrs r (by simp)
    rw [List.map_cons] at h
    cases h with
    | cons _ _ _ o' cs nh rest hst hl =>
      have hcs : ∀ d, 0 < cs d := by
        obtain ⟨l, hl0, hvec⟩ := completeCellSizes_one (k := k) r
        cases hst with
        | ok l' _ _ hl' _ _ _ =>
          rw [hl0] at hl'
          cases hl'
          intro d
          rw [hvec]
          exact hr
      have hco := (levelStep_spec heps hv hst hcs).1
      have hn' : 0 < o'.c.n := by
        have h0 : 0 < o.c.countIn (o.c.batch ⟨0, hn⟩) := by
          unfold Cloud.countIn
          exact Finset.card_pos.2 ⟨⟨0, hn⟩, by simp⟩
        have := hco.keeps _ h0
        unfold Cloud.countIn at this
        obtain ⟨i, _⟩ := Finset.card_pos.1 this
        exact i.pos
      obtain ⟨h1, ls', h2, h3⟩ := ih (fun r hr => hrs r (by simp [hr])) o' hco.valid hn' rest hl
      obtain ⟨nh', h4⟩ := levelStep_turn heps hR hr hmode hv hn hst
      refine ⟨?_, (o'.turn R, fun _ => r, nh') :: ls', Levels.cons _ _ _ _ _ _ _ h4 h2, ?_⟩
      · intro x hx
        rcases List.mem_cons.1 hx with rfl | hx
        · exact ⟨hco.valid, hn', hco.batchSize⟩
        · obtain ⟨a, b, c⟩ := h1 x hx
          exact ⟨a, b, c.trans hco.batchSize⟩
      · rw [List.map_cons, h3]
        rfl

/-- **C171, hierarchies**: for every hierarchy of Poisson samples of a cloud there is a possible hierarchy of the turned cloud whose
levels are the turned levels. -/
theorem C171_hierarchy {dev : Device} {eps : ℝ} (heps : 0 < eps) {R : Fin (k + 2) → Fin (k + 2) → ℝ} (hR : Orthonormal' R) {lower : String → String}
    {mode : String} (hmode : lower mode ∈ ["poisson", "poisson disk", "poisson_disk"])
    (o : CloudObj (Fin (k + 2) → ℝ)) (hv : o.c.Valid) (hn : 0 < o.c.n) (rs : List ℝ) (hrs : ∀ r ∈ rs, 0 < r) (H : Hier k ℝ)
    (hH : HierNew dev eps lower mode o (rs.map oneSize) (.ok H)) :
    ∃ H', HierNew .gpu eps lower mode (o.turn R) (rs.map oneSize) (.ok H') ∧
      H'.clouds = H.clouds.map (·.turn R) := by
  rcases hH with ⟨ls, hl, he⟩ | ⟨e, _, he⟩
  · have he := Except.ok.inj he
    subst he
    obtain ⟨_, ls', h2, h3⟩ := levels_turn heps hR hmode rs hrs o hv hn ls hl
    refine ⟨_, Or.inl ⟨ls', h2, rfl⟩, ?_⟩
    show o.turn R :: ls'.map (·.1) = o.turn R :: (ls.map (·.1)).map (·.turn R)
    rw [h3]
  · cases he

/-! ### The network of the tutorial -/

theorem flattenFeatures_turn {β : Type*} (o : CloudObj (Fin D → ℝ)) (R : Fin D → Fin D → ℝ) (blocks : List (List β)) :
    ((o.turn R).flattenFeatures blocks).1 = (o.flattenFeatures blocks).1 := by
  have hg : (o.turn R).getSizes = (o.getSizes.1, o.getSizes.2.turn R) := by
    obtain ⟨c, sz, b, sg, u⟩ := o
    cases sz with
    | some x => rfl
    | none =>
      cases b with
      | none => rfl
      | some sh =>
        have key : ∀ c' : Cloud (Fin D → ℝ), List.ofFn c'.batch = List.ofFn c.batch →
            CloudObj.getSizes ⟨c', none, some sh, sg, u⟩ =
            if sh.prod = (sizesOfIds (List.ofFn c.batch)).length then
              (.ok (sh, sizesOfIds (List.ofFn c.batch)), ⟨c', some (sh, sizesOfIds (List.ofFn c.batch)), some sh, sg, u⟩)
            else (.error .invalidArgument, ⟨c', some ([(sizesOfIds (List.ofFn c.batch)).length],
              sizesOfIds (List.ofFn c.batch)), some sh, sg, u⟩) := by
          intro c' e
          unfold CloudObj.getSizes
          dsimp only
          rw [e]
        rw [show (⟨c, none, some sh, sg, u⟩ : CloudObj (Fin D → ℝ)).turn R = ⟨c.turn R, none, some sh, sg, u⟩ from rfl,
          key (c.turn R) rfl, key c rfl]
        by_cases h : sh.prod = (sizesOfIds (List.ofFn c.batch)).length
        · rw [if_pos h, if_pos h]; rfl
        · rw [if_neg h, if_neg h]; rfl
  unfold CloudObj.flattenFeatures
  rw [hg]
  obtain ⟨r, o'⟩ := o.getSizes
  cases r with
  | error e => rfl
  | ok x =>
    obtain ⟨sh, sz⟩ := x
    dsimp only
    by_cases h : (flattenRows blocks sz).length = o.c.n
    · refine (congrArg Prod.fst (dif_pos h)).trans (Eq.trans ?_ (congrArg Prod.fst (dif_pos h)).symm)
      rfl
    · refine (congrArg Prod.fst (dif_neg h)).trans ?_
      rw [dif_neg h]
      rfl


/-! ### The networks -/

/-- Specification: the network with all filters turned. -/
noncomputable def NetTut.turn (R : Fin D → Fin D → ℝ) (N : NetTut D) : NetTut D where
  levels := N.levels.map fun l => ⟨l.conv.turn R, l.bn, l.sampleRadius, l.convRadius⟩
  last := N.last.turn R
  lastSampleRadius := N.lastSampleRadius
  lastConvRadius := N.lastConvRadius
  head := N.head

theorem netTutLoop_turn (E : NetEnv) (hker : E.ker = gauss) (hdev : E.dev = .gpu) (heps : 0 < E.eps) (N : NetTut (k + 2))
    (hlast : N.last.Ok ∧ 0 < N.lastSampleRadius ∧ 0 < N.lastConvRadius) {R : Fin (k + 2) → Fin (k + 2) → ℝ} (hR : Orthonormal' R) (B : ℕ) :
    ∀ (levels : List (LevelTut (k + 2))) (hl : ∀ l ∈ levels, l.conv.Ok ∧ 0 < l.sampleRadius ∧ 0 < l.convRadius)
    (os : List (CloudObj (Fin (k + 2) → ℝ))) (o : CloudObj (Fin (k + 2) → ℝ)) (f : Fin o.c.n → ℕ → ℝ)
    (ho : ∀ x ∈ o :: os, x.c.Valid ∧ 0 < x.c.n ∧ x.c.B = B)
    (p : CloudObj (Fin (k + 2) → ℝ)) (g : Fin p.c.n → ℕ → ℝ)
    (h : netTutLoop E N o f os levels = .ok ⟨p, g⟩),
    netTutLoop E (N.turn R) (o.turn R) f (os.map (·.turn R))
      (levels.map fun l => ⟨l.conv.turn R, l.bn, l.sampleRadius, l.convRadius⟩) = .ok ⟨p.turn R, g⟩ := by
  intro levels
  induction levels with
  | nil =>
    intro hl os o f ho p g h
    match os, h with
    | [], h => simp [netTutLoop] at h
    | [o'], h =>
      obtain ⟨a1, a2, a3⟩ := ho o (by simp)
      obtain ⟨b1, b2, b3⟩ := ho o' (by simp)
      rw [netTutLoop_single] at h
      refine (netTutLoop_single E (N.turn R) (o.turn R) f (o'.turn R)).trans ?_
      cases hc : N.last.call E o.c o'.c N.lastConvRadius f with
      | error e => rw [hc] at h; cases h
      | ok u =>
        rw [hc] at h
        have := NetConv.call_turn E hker hdev heps hlast.1 hlast.2.2 a1 b1 (b3.trans a3.symm) a2 b2 hR f hc
        refine (congrArg (Except.bind · _) this).trans ?_
        cases h
        rfl
    | _ :: _ :: _, h => simp [netTutLoop] at h
  | cons l ls ih =>
    intro hl os o f ho p g h
    match os, h with
    | [], h => simp [netTutLoop] at h
    | o' :: os, h =>
      obtain ⟨a1, a2, a3⟩ := ho o (by simp)
      obtain ⟨b1, b2, b3⟩ := ho o' (by simp)
      obtain ⟨l1, l2, l3⟩ := hl l (by simp)
      rw [netTutLoop_cons] at h
      refine (netTutLoop_cons E (N.turn R) (o.turn R) (o'.turn R) f _ _ _).trans ?_
      cases hc : l.conv.call E o.c o'.c l.convRadius f with
      | error e => rw [hc] at h; cases h
      | ok u =>
        rw [hc] at h
        have := NetConv.call_turn E hker hdev heps l1 l3 a1 b1 (b3.trans a3.symm) a2 b2 hR f hc
        have hi := ih (fun l hl' => hl l (by simp [hl'])) os o' (E.bnAct l.bn u) (fun x hx => ho x (List.mem_cons_of_mem _ hx)) p g h
        have e : (E : NetEnv).bnAct l.bn u = E.bnAct l.bn u := rfl
        split
        · rename_i e2 he
          cases he.symm.trans this
        · rename_i g' he
          cases Except.ok.inj (he.symm.trans this)
          exact hi

/-- Specification: all shapes turned. -/
noncomputable def turnShapes (R : Fin D → Fin D → ℝ) (points : List (List (Fin D → ℝ))) : List (List (Fin D → ℝ)) :=
  points.map (List.map (turn R))

theorem newPadded_turn_sizes (shape : List ℕ) (V : ℕ) (points : List (List (Fin D → ℝ))) (sizes : List ℕ) (B : ℕ) (R : Fin D → Fin D → ℝ) :
    CloudObj.newPadded shape V (turnShapes R points) (some sizes) (some B) =
      (CloudObj.newPadded shape V points (some sizes) (some B)).map (·.turn R) := by
  unfold CloudObj.newPadded
  simp only [Option.getD_some]
  by_cases hB : B ≠ shape.prod
  · rw [if_pos hB, if_pos hB]; rfl
  rw [if_neg hB, if_neg hB]
  have hfl := flattenRows_map (turn R) points sizes
  by_cases h : (repeatRange sizes).length = (flattenRows points sizes).length
  · have h' : (repeatRange sizes).length = (flattenRows (turnShapes R points) sizes).length := by
      unfold turnShapes
      rw [hfl, List.length_map]
      exact h
    rw [dif_pos h, dif_pos h']
    refine congrArg Except.ok ?_
    have : (⟨flattenRows (turnShapes R points) sizes, repeatRange sizes, B⟩ : RawCloud _).toCloud h' =
        ((⟨flattenRows points sizes, repeatRange sizes, B⟩ : RawCloud _).toCloud h).turn R := by
      refine cloud_eq (h'.symm.trans h) (fun i => ?_) (fun i => rfl) rfl
      show (flattenRows (turnShapes R points) sizes)[i.val]'_ = turn R ((flattenRows points sizes)[i.val]'_)
      have h3 : i.val < (flattenRows (turnShapes R points) sizes).length := i.isLt
      have := List.getElem_of_eq hfl h3
      rw [List.getElem_map] at this
      exact this
    rw [this]
    rfl
  · have h' : ¬ (repeatRange sizes).length = (flattenRows (turnShapes R points) sizes).length := by
      unfold turnShapes
      rw [hfl, List.length_map]
      exact h
    rw [dif_neg h, dif_neg h']
    rfl

/-- A call of a network: the result on the turned batch, given what the network does on the turned levels. -/
theorem call_turn {E : NetEnv} (hker : E.ker = gauss) (hdev : E.dev = .gpu) (heps : 0 < E.eps) {R : Fin (k + 2) → Fin (k + 2) → ℝ} (hR : Orthonormal' R)
    {lower : String → String} {mode : String} (hmode : lower mode ∈ ["poisson", "poisson disk", "poisson_disk"]) {V : ℕ} {rs : List ℝ} (hrs : ∀ r ∈ rs, 0 < r)
    {points : List (List (Fin (k + 2) → ℝ))} {sizes : List ℕ} (hP : PaddedOk V points sizes) (hne : ∀ s ∈ sizes, 0 < s) (hB : points ≠ [])
    {L L' : Hier k ℝ → Except Err (List (ℕ → ℝ))} {rows : List (ℕ → ℝ)}
    (hL : ∀ H H' o os, H.clouds = o :: os → (∀ x ∈ o :: os, x.c.Valid ∧ 0 < x.c.n ∧ x.c.B = o.c.B) →
      H'.clouds = o.turn R :: os.map (·.turn R) → L H = .ok rows → L' H' = .ok rows)
    (h : match CloudObj.newPadded [points.length] V points (some sizes) (some points.length) with
      | .error e => (.ok rows : Except Err (List (ℕ → ℝ))) = .error e
      | .ok o => (∃ e, HierNew E.dev E.eps lower mode o (rs.map oneSize) (.error e) ∧ (.ok rows : Except Err (List (ℕ → ℝ))) = .error e) ∨
        ∃ H, HierNew E.dev E.eps lower mode o (rs.map oneSize) (.ok H) ∧ .ok rows = L H) :
    match CloudObj.newPadded [(turnShapes R points).length] V (turnShapes R points) (some sizes) (some (turnShapes R points).length) with
      | .error e => (.ok rows : Except Err (List (ℕ → ℝ))) = .error e
      | .ok o => (∃ e, HierNew E.dev E.eps lower mode o (rs.map oneSize) (.error e) ∧
          (.ok rows : Except Err (List (ℕ → ℝ))) = .error e) ∨
        ∃ H, HierNew E.dev E.eps lower mode o (rs.map oneSize) (.ok H) ∧ .ok rows = L' H := by
  obtain ⟨o, ho⟩ := newPadded_returns hP
  obtain ⟨_, p2, p3, p4, p5, _, p7, _, p8⟩ := newPadded_spec hP.len hP.block hP.size ho
  have hBpos : 0 < points.length := List.length_pos_iff.2 hB
  have hno := padded_noEmpty hP ho hne
  have hn : 0 < o.c.n := by
    obtain ⟨i, _⟩ := hno 0 (by omega)
    exact i.pos
  have hlen : (turnShapes R points).length = points.length := List.length_map _
  rw [hlen, newPadded_turn_sizes]
  rw [ho] at h ⊢
  dsimp only [Except.map] at h ⊢
  rcases h with ⟨e, _, he⟩ | ⟨H, hH, hr⟩
  · cases he
  rw [hdev] at hH ⊢
  right
  obtain ⟨H', hH', hcl⟩ := C171_hierarchy heps hR hmode o p3 hn _ hrs H hH
  refine ⟨H', hH', ?_⟩
  have hgood : ∃ os, H.clouds = o :: os ∧ ∀ x ∈ o :: os, x.c.Valid ∧ 0 < x.c.n ∧ x.c.B = o.c.B := by
    rcases hH with ⟨ls, hl, he⟩ | ⟨e, _, he⟩
    · have he := Except.ok.inj he
      subst he
      obtain ⟨h1, _⟩ := levels_turn heps hR hmode _ hrs o p3 hn ls hl
      refine ⟨_, rfl, fun x hx => ?_⟩
      rcases List.mem_cons.1 hx with rfl | hx
      · exact ⟨p3, hn, rfl⟩
      · obtain ⟨y, hy, rfl⟩ := List.mem_map.1 hx
        exact h1 y hy
    · cases he
  obtain ⟨os, hc, hgood⟩ := hgood
  rw [hc, List.map_cons] at hcl
  exact (hL H H' o os hc hgood hcl hr.symm).symm

/-! ### modelnet40.py -/

/-- Specification: the block with the filters turned. -/
noncomputable def NetBlock.turn (R : Fin D → Fin D → ℝ) (b : NetBlock D) : NetBlock D := { b with conv := b.conv.turn R }

/-- Specification: the network with all filters turned. -/
noncomputable def Net40.turn (R : Fin D → Fin D → ℝ) (N : Net40 D) : Net40 D where
  init := N.init.turn R
  block0 := N.block0.turn R
  poolRadius0 := N.poolRadius0
  convRadius0 := N.convRadius0
  levels := N.levels.map fun l => ⟨l.strided.turn R, l.block.turn R, l.poolRadius, l.convRadius⟩
  head := N.head

/-- The argument of the skip connection, for blocks with pooling. -/
def RadiusOne (b : Bool) (r : RadiusArg ℝ) : Prop := (b = true ∧ ∃ x, 0 < x ∧ r = .vec [x]) ∨ b = false

theorem NetBlock.run_turn (E : NetEnv) (hker : E.ker = gauss) (hdev : E.dev = .gpu) (heps : 0 < E.eps) {b : NetBlock (k + 2)}
    (hL : b.conv.Ok) {cin cout : Cloud (Fin (k + 2) → ℝ)} {radius : ℝ} (hr : 0 < radius) (hv : cin.Valid) (hv' : cout.Valid)
    (hB : cout.B = cin.B) (hn : 0 < cin.n) (hn' : 0 < cout.n) {R : Fin (k + 2) → Fin (k + 2) → ℝ} (hR : Orthonormal' R) {pr : RadiusArg ℝ}
    (hp : RadiusOne b.strided pr) (f : Fin cin.n → ℕ → ℝ) {g : Fin cout.n → ℕ → ℝ}
    (h : b.run E cin cout radius pr f = .ok g) :
    (b.turn R).run E (cin.turn R) (cout.turn R) radius pr f = .ok g := by
  have hpool : ∀ x, b.pool E cin cout pr f = .ok x →
      (b.turn R).pool E (cin.turn R) (cout.turn R) pr f = .ok x := by
    intro x hx
    unfold NetBlock.pool at hx ⊢
    rcases hp with ⟨hst, r, hr, rfl⟩ | hst
    · rw [if_pos hst] at hx
      have hst' : (b.turn R).strided = true := hst
      rw [if_pos hst']
      obtain ⟨out', ho'⟩ := C44_returns .max E.eps (cin.turn R) (cout.turn R) (.vec [r]) (fun _ => r) rfl
        ⟨hv, hr, fun _ => le_rfl, heps⟩ hn' (fun i => by show cout.batch i < cin.B; rw [← hB]; exact hv' i) f
      split at hx
      · cases hx
      rename_i out ho
      have h1 := fun c ch => C43_local_max E.dev E.eps cin cout (.vec [r]) (fun _ => r) rfl ⟨hv, hr, fun _ => le_rfl, heps⟩ f out ho c ch
      have h2 := fun c ch => C43_local_max .gpu E.eps (cin.turn R) (cout.turn R) (.vec [r]) (fun _ => r) rfl
        ⟨hv, hr, fun _ => le_rfl, heps⟩ f out' ho' c ch
      have heq : out' = out := by
        funext c ch
        have := h2 c ch
        rw [show nbrs (cin.turn R) (cout.turn R) (r) c = nbrs cin cout r c from nbrs_turn hR cin cout r c] at this
        exact this.unique (h1 c ch)
      subst heq
      have ho2 : localPool .max E.dev E.eps (cin.turn R) (cout.turn R) (.vec [r]) f = .ok out' := by rw [hdev]; exact ho'
      split
      · rename_i e he
        cases he.symm.trans ho2
      · rename_i out2 he
        cases Except.ok.inj (he.symm.trans ho2)
        exact hx
    · have hst' : ¬ b.strided = true := by simp [hst]
      have hst2 : ¬ (b.turn R).strided = true := hst'
      rw [if_neg hst'] at hx
      rw [if_neg hst2]
      by_cases hc : cout.n = cin.n
      · rw [dif_pos hc] at hx
        exact (dif_pos hc).trans hx
      · rw [dif_neg hc] at hx
        cases hx
  unfold NetBlock.run at h
  split at h
  · cases h
  rename_i r hr1
  split at h
  · cases h
  rename_i x hx
  have hc := NetConv.call_turn E hker hdev heps hL hr hv hv' hB hn hn' hR (E.bnAct b.bn1 (b.down.apply (E.bnAct b.bn0 f))) hr1
  unfold NetBlock.run
  split
  · rename_i e he
    cases he.symm.trans hc
  rename_i r' he
  cases Except.ok.inj (he.symm.trans hc)
  split
  · rename_i e he2
    cases he2.symm.trans (hpool x hx)
  rename_i x' he2
  cases Except.ok.inj (he2.symm.trans (hpool x hx))
  exact h

theorem net40Loop_turn (E : NetEnv) (hker : E.ker = gauss) (hdev : E.dev = .gpu) (heps : 0 < E.eps) {R : Fin (k + 2) → Fin (k + 2) → ℝ} (hR : Orthonormal' R) (B : ℕ) :
    ∀ (levels : List (Level40 (k + 2)))
    (hl : ∀ l ∈ levels, l.strided.conv.Ok ∧ l.strided.strided = true ∧ l.block.conv.Ok ∧
      l.block.strided = false ∧ 0 < l.poolRadius ∧ 0 < l.convRadius)
    (os : List (CloudObj (Fin (k + 2) → ℝ))) (o : CloudObj (Fin (k + 2) → ℝ)) (f : Fin o.c.n → ℕ → ℝ)
    (ho : ∀ x ∈ o :: os, x.c.Valid ∧ 0 < x.c.n ∧ x.c.B = B)
    (p : CloudObj (Fin (k + 2) → ℝ)) (g : Fin p.c.n → ℕ → ℝ)
    (h : net40Loop E o f os levels = .ok ⟨p, g⟩),
    net40Loop E (o.turn R) f (os.map (·.turn R))
      (levels.map fun l => ⟨l.strided.turn R, l.block.turn R, l.poolRadius, l.convRadius⟩) = .ok ⟨p.turn R, g⟩ := by
  intro levels
  induction levels with
  | nil =>
    intro hl os o f ho p g h
    match os, h with
    | [], h =>
      cases h
      rfl
    | _ :: _, h => simp [net40Loop] at h
  | cons l ls ih =>
    intro hl os o f ho p g h
    match os, h with
    | [], h => simp [net40Loop] at h
    | o' :: os, h =>
      obtain ⟨a1, a2, a3⟩ := ho o (by simp)
      obtain ⟨b1, b2, b3⟩ := ho o' (by simp)
      obtain ⟨l1, l2, l3, l4, l5, l6⟩ := hl l (by simp)
      rw [net40Loop_cons] at h
      refine (net40Loop_cons E (o.turn R) f (o'.turn R) _ _ _).trans ?_
      cases hc : l.strided.run E o.c o'.c l.poolRadius (.vec [l.poolRadius]) f with
      | error e => rw [hc] at h; cases h
      | ok u =>
        rw [hc] at h
        dsimp only [Except.bind] at h
        have h1 := NetBlock.run_turn E hker hdev heps l1 l5 a1 b1 (b3.trans a3.symm) a2 b2 hR
          (pr := .vec [l.poolRadius]) (Or.inl ⟨l2, _, l5, rfl⟩) f hc
        cases hd : l.block.run E o'.c o'.c l.convRadius (.vec []) u with
        | error e => rw [hd] at h; cases h
        | ok v =>
          rw [hd] at h
          have h2 := NetBlock.run_turn E hker hdev heps l3 l6 b1 b1 rfl b2 b2 hR (pr := .vec []) (Or.inr l4) u hd
          refine (congrArg (Except.bind · _) h1).trans ?_
          dsimp only [Except.bind]
          have hi := ih (fun l hl' => hl l (by simp [hl'])) os o' v (fun x hx => ho x (List.mem_cons_of_mem _ hx)) p g h
          split
          · rename_i e he
            cases he.symm.trans h2
          · rename_i v' he
            cases Except.ok.inj (he.symm.trans h2)
            exact hi

theorem net40_turn (E : NetEnv) (hker : E.ker = gauss) (hdev : E.dev = .gpu) (heps : 0 < E.eps) (N : Net40 (k + 2)) (hN : N.Ok)
    (lower : String → String) (mode : String) (hmode : lower mode ∈ ["poisson", "poisson disk", "poisson_disk"]) {V : ℕ}
    {points : List (List (Fin (k + 2) → ℝ))} {sizes : List ℕ} (hP : PaddedOk V points sizes) (hne : ∀ s ∈ sizes, 0 < s) (hB : points ≠ [])
    {R : Fin (k + 2) → Fin (k + 2) → ℝ} (hR : Orthonormal' R) (feats : List (List (ℕ → ℝ))) (rows : List (ℕ → ℝ))
    (h : N.Call E lower mode points.length V points feats sizes (.ok rows)) :
    (N.turn R).Call E lower mode points.length V (turnShapes R points) feats sizes (.ok rows) := by
  have hrs : ∀ r ∈ N.poolRadius0 :: N.levels.map Level40.poolRadius, 0 < r := by
    intro r hr
    rcases List.mem_cons.1 hr with rfl | hr
    · exact hN.radius0.1
    · obtain ⟨l, hl, rfl⟩ := List.mem_map.1 hr
      exact (hN.levels l hl).2.2.2.2.1
  have hsz : (N.turn R).sizes = ((N.poolRadius0 :: N.levels.map Level40.poolRadius)).map oneSize := by
    unfold Net40.sizes Net40.turn oneSize
    simp [List.map_map, Function.comp_def]
  have hlen : (turnShapes R points).length = points.length := List.length_map _
  have := call_turn (rows := rows) (L := fun H => N.logits E H feats)
    (L' := fun H => (N.turn R).logits E H feats) hker hdev heps hR hmode hrs hP hne hB ?_ h
  · unfold Net40.Call
    rw [hsz]
    rw [hlen] at this ⊢
    exact this
  intro H H' o os hc hgood hcl hr
  unfold Net40.logits at hr ⊢
  rw [hc] at hr
  rw [hcl]
  cases os with
  | nil => cases hr
  | cons o1 os =>
  rw [List.map_cons]
  dsimp only at hr ⊢
  have hi : net40Init (o1.turn R) feats = net40Init o1 feats := flattenFeatures_turn o1 R _
  rw [hi]
  cases hf : net40Init o1 feats with
  | error e => rw [hf] at hr; cases hr
  | ok f0 =>
    rw [hf] at hr
    dsimp only at hr ⊢
    obtain ⟨b1, b2, b3⟩ := hgood o1 (by simp)
    cases h1 : N.init.call E o1.c o1.c N.convRadius0 f0 with
    | error e => rw [h1] at hr; cases hr
    | ok f1 =>
      rw [h1] at hr
      dsimp only at hr
      have u1 := NetConv.call_turn E hker hdev heps hN.init hN.radius0.2 b1 b1 rfl b2 b2 hR f0 h1
      split
      · rename_i e he
        cases he.symm.trans u1
      rename_i f1' he
      cases Except.ok.inj (he.symm.trans u1)
      cases h2 : N.block0.run E o1.c o1.c N.convRadius0 (.vec []) f1 with
      | error e => rw [h2] at hr; cases hr
      | ok f2 =>
        rw [h2] at hr
        dsimp only at hr
        have u2 := NetBlock.run_turn E hker hdev heps hN.block0.1 hN.radius0.2 b1 b1 rfl b2 b2 hR (pr := .vec [])
          (Or.inr hN.block0.2) f1 h2
        split
        · rename_i e he
          cases he.symm.trans u2
        rename_i f2' he
        cases Except.ok.inj (he.symm.trans u2)
        cases hl : net40Loop E o1 f2 os N.levels with
        | error e => rw [hl] at hr; cases hr
        | ok x =>
          obtain ⟨p, g⟩ := x
          rw [hl] at hr
          have hu := net40Loop_turn E hker hdev heps hR o.c.B N.levels hN.levels os o1 f2
            (fun x hx => hgood x (List.mem_cons_of_mem _ hx)) p g hl
          split
          · rename_i e he
            cases he.symm.trans hu
          · rename_i p' g' he
            cases Except.ok.inj (he.symm.trans hu)
            exact hr

theorem Net40.turn_ok {R : Fin (k + 2) → Fin (k + 2) → ℝ} (hR : Orthonormal' R) {N : Net40 (k + 2)} (h : N.Ok) : (N.turn R).Ok := by
  refine ⟨NetConv.turn_ok h.init, ⟨NetConv.turn_ok h.block0.1, h.block0.2⟩, h.radius0,
    fun l hl => ?_⟩
  obtain ⟨l', hl', rfl⟩ := List.mem_map.1 hl
  obtain ⟨a, b, c, d, e, f⟩ := h.levels l' hl'
  exact ⟨NetConv.turn_ok a, b, NetConv.turn_ok c, d, e, f⟩

theorem NetBlock.turn_back {R : Fin D → Fin D → ℝ} (hR : Orthonormal' R) (b : NetBlock D) : (b.turn R).turn (flipped R) = b := by
  unfold NetBlock.turn
  rw [NetConv.turn_back hR]

theorem Net40.turn_back {R : Fin D → Fin D → ℝ} (hR : Orthonormal' R) (N : Net40 D) : (N.turn R).turn (flipped R) = N := by
  obtain ⟨i, b, r1, r2, ls, hd⟩ := N
  unfold Net40.turn
  simp only [List.map_map, Function.comp_def, NetConv.turn_back hR, NetBlock.turn_back hR,
    Net40.mk.injEq, and_true, true_and]
  exact List.map_id' _

theorem PaddedOk.turn {V : ℕ} {points : List (List (Fin D → ℝ))} {sizes : List ℕ} (h : PaddedOk V points sizes) (R : Fin D → Fin D → ℝ) :
    PaddedOk V (turnShapes R points) sizes := by
  refine ⟨h.len.trans (List.length_map _).symm, fun p hp => ?_, h.size⟩
  obtain ⟨q, hq, rfl⟩ := List.mem_map.1 hp
  rw [List.length_map]
  exact h.block q hq

theorem turnShapes_back {R : Fin D → Fin D → ℝ} (hR : Orthonormal' R) (points : List (List (Fin D → ℝ))) :
    turnShapes (flipped R) (turnShapes R points) = points := by
  unfold turnShapes
  simp only [List.map_map, Function.comp_def, turn_back hR, List.map_id']

/-- **C171, the residual network**: if all points and the filters of all layers are turned (or reflected), the network of the script
has the same possible logits, in training and in evaluation. -/
theorem C171_residual (E : NetEnv) (hker : E.ker = gauss) (hdev : E.dev = .gpu) (heps : 0 < E.eps) (N : Net40 (k + 2)) (hN : N.Ok)
    (lower : String → String) (mode : String) (hmode : lower mode ∈ ["poisson", "poisson disk", "poisson_disk"]) {V : ℕ}
    {points : List (List (Fin (k + 2) → ℝ))} {sizes : List ℕ} (hP : PaddedOk V points sizes) (hne : ∀ s ∈ sizes, 0 < s) (hB : points ≠ [])
    {R : Fin (k + 2) → Fin (k + 2) → ℝ} (hR : Orthonormal' R) (feats : List (List (ℕ → ℝ))) (rows : List (ℕ → ℝ)) :
    (N.turn R).Call E lower mode points.length V (turnShapes R points) feats sizes (.ok rows) ↔
      N.Call E lower mode points.length V points feats sizes (.ok rows) := by
  constructor
  · intro h
    have hlen : (turnShapes R points).length = points.length := List.length_map _
    rw [← hlen] at h
    have := net40_turn E hker hdev heps (N.turn R) (Net40.turn_ok hR hN) lower mode
      hmode (hP.turn R) hne (by simpa [turnShapes] using hB) (flipped_orthonormal hR) feats rows h
    rw [Net40.turn_back hR, turnShapes_back hR, hlen] at this
    exact this
  · exact net40_turn E hker hdev heps N hN lower mode hmode hP hne hB hR feats rows

/-! ### The tutorial -/

theorem netTut_turn (E : NetEnv) (hker : E.ker = gauss) (hdev : E.dev = .gpu) (heps : 0 < E.eps) (N : NetTut (k + 2)) (hN : N.Ok)
    (lower : String → String) (mode : String) (hmode : lower mode ∈ ["poisson", "poisson disk", "poisson_disk"]) {V : ℕ} (hVpos : 0 < V)
    {points : List (List (Fin (k + 2) → ℝ))} (hV : ∀ p ∈ points, p.length = V) (hB : points ≠ [])
    {R : Fin (k + 2) → Fin (k + 2) → ℝ} (hR : Orthonormal' R) (feats : List (List (ℕ → ℝ))) (rows : List (ℕ → ℝ))
    (h : N.Call E lower mode V points feats (.ok rows)) :
    (N.turn R).Call E lower mode V (turnShapes R points) feats (.ok rows) := by
  have hrs : ∀ r ∈ N.levels.map LevelTut.sampleRadius ++ [N.lastSampleRadius], 0 < r := by
    intro r hr
    rcases List.mem_append.1 hr with hr | hr
    · obtain ⟨l, hl, rfl⟩ := List.mem_map.1 hr
      exact (hN.levels l hl).2.1
    · rw [List.mem_singleton.1 hr]
      exact hN.last.2.1
  have hsz : (N.turn R).sizes = (N.levels.map LevelTut.sampleRadius ++ [N.lastSampleRadius]).map oneSize := by
    unfold NetTut.sizes NetTut.turn oneSize
    simp [List.map_map, Function.comp_def]
  have hlen : (turnShapes R points).length = points.length := List.length_map _
  unfold NetTut.Call at h ⊢
  rw [newPadded_noSizes] at h ⊢
  rw [hsz, hlen]
  have := call_turn (rows := rows) (L := fun H => N.logits E H feats)
    (L' := fun H => (N.turn R).logits E H feats) hker hdev heps hR hmode hrs (paddedOk_full hV)
    (fun s hs => by rw [List.eq_of_mem_replicate hs]; exact hVpos) hB ?_ h
  · rw [hlen] at this
    exact this
  intro H H' o os hc hgood hcl hr
  unfold NetTut.logits at hr ⊢
  rw [hc] at hr
  rw [hcl]
  dsimp only at hr ⊢
  rw [flattenFeatures_turn]
  cases hf : (o.flattenFeatures feats).1 with
  | error e => rw [hf] at hr; cases hr
  | ok f0 =>
    rw [hf] at hr
    dsimp only at hr ⊢
    cases hl : netTutLoop E N o f0 os N.levels with
    | error e => rw [hl] at hr; cases hr
    | ok x =>
      obtain ⟨p, g⟩ := x
      rw [hl] at hr
      have hu := netTutLoop_turn E hker hdev heps N hN.last hR o.c.B N.levels hN.levels os o f0 hgood p g hl
      split
      · rename_i e he
        cases he.symm.trans hu
      · rename_i p' g' he
        cases Except.ok.inj (he.symm.trans hu)
        exact hr

theorem NetTut.turn_ok {R : Fin (k + 2) → Fin (k + 2) → ℝ} {N : NetTut (k + 2)} (h : N.Ok) : (N.turn R).Ok := by
  refine ⟨⟨NetConv.turn_ok h.last.1, h.last.2.1, h.last.2.2⟩, fun l hl => ?_⟩
  obtain ⟨l', hl', rfl⟩ := List.mem_map.1 hl
  obtain ⟨a, b, c⟩ := h.levels l' hl'
  exact ⟨NetConv.turn_ok a, b, c⟩

theorem NetTut.turn_back {R : Fin D → Fin D → ℝ} (hR : Orthonormal' R) (N : NetTut D) : (N.turn R).turn (flipped R) = N := by
  obtain ⟨ls, la, r1, r2, hd⟩ := N
  unfold NetTut.turn
  simp only [List.map_map, Function.comp_def, NetConv.turn_back hR, NetTut.mk.injEq, and_true]
  exact List.map_id' _

/-- **C171, the network of the tutorial.** -/
theorem C171_tutorial (E : NetEnv) (hker : E.ker = gauss) (hdev : E.dev = .gpu) (heps : 0 < E.eps) (N : NetTut (k + 2)) (hN : N.Ok)
    (lower : String → String) (mode : String) (hmode : lower mode ∈ ["poisson", "poisson disk", "poisson_disk"]) {V : ℕ} (hVpos : 0 < V)
    {points : List (List (Fin (k + 2) → ℝ))} (hV : ∀ p ∈ points, p.length = V) (hB : points ≠ [])
    {R : Fin (k + 2) → Fin (k + 2) → ℝ} (hR : Orthonormal' R) (feats : List (List (ℕ → ℝ))) (rows : List (ℕ → ℝ)) :
    (N.turn R).Call E lower mode V (turnShapes R points) feats (.ok rows) ↔ N.Call E lower mode V points feats (.ok rows) := by
  constructor
  · intro h
    have hV' : ∀ p ∈ turnShapes R points, p.length = V := by
      intro p hp
      obtain ⟨q, hq, rfl⟩ := List.mem_map.1 hp
      rw [List.length_map]
      exact hV q hq
    have := netTut_turn E hker hdev heps (N.turn R) (NetTut.turn_ok hN) lower mode hmode hVpos hV'
      (by simpa [turnShapes] using hB) (flipped_orthonormal hR) feats rows h
    rw [NetTut.turn_back hR, turnShapes_back hR] at this
    exact this
  · exact netTut_turn E hker hdev heps N hN lower mode hmode hVpos hV hB hR feats rows

/-! ### modelnet40_small.py -/

/-- Specification: the network with all filters turned. -/
noncomputable def NetSmall.turn (R : Fin D → Fin D → ℝ) (N : NetSmall D) : NetSmall D where
  levels := N.levels.map fun l => { l with conv := l.conv.turn R, sampleRadius := l.sampleRadius, convRadius := l.convRadius }
  last := N.last.turn R
  lastSampleRadius := N.lastSampleRadius
  lastConvRadius := N.lastConvRadius
  head := N.head

theorem netSmallLoop_turn (E : NetEnv) (hker : E.ker = gauss) (hdev : E.dev = .gpu) (heps : 0 < E.eps) (N : NetSmall (k + 2))
    (hlast : N.last.Ok ∧ 0 < N.lastSampleRadius ∧ 0 < N.lastConvRadius) {R : Fin (k + 2) → Fin (k + 2) → ℝ} (hR : Orthonormal' R) (B : ℕ) :
    ∀ (levels : List (LevelSmall (k + 2))) (hl : ∀ l ∈ levels, l.conv.Ok ∧ 0 < l.sampleRadius ∧ 0 < l.convRadius)
    (os : List (CloudObj (Fin (k + 2) → ℝ))) (o : CloudObj (Fin (k + 2) → ℝ)) (f : Fin o.c.n → ℕ → ℝ)
    (ho : ∀ x ∈ o :: os, x.c.Valid ∧ 0 < x.c.n ∧ x.c.B = B)
    (x : (n : ℕ) × (Fin n → ℕ → ℝ)) (h : netSmallLoop E N o f os levels = .ok x),
    netSmallLoop E (N.turn R) (o.turn R) f (os.map (·.turn R))
      (levels.map fun l => { l with conv := l.conv.turn R, sampleRadius := l.sampleRadius, convRadius := l.convRadius }) =
      .ok x := by
  intro levels
  induction levels with
  | nil =>
    intro hl os o f ho x h
    match os, h with
    | [], h => simp [netSmallLoop] at h
    | [o'], h =>
      obtain ⟨a1, a2, a3⟩ := ho o (by simp)
      obtain ⟨b1, b2, b3⟩ := ho o' (by simp)
      rw [netSmallLoop_single] at h
      refine (netSmallLoop_single E (N.turn R) (o.turn R) f (o'.turn R)).trans ?_
      cases hc : N.last.call E o.c o'.c N.lastConvRadius f with
      | error e => rw [hc] at h; cases h
      | ok u =>
        rw [hc] at h
        have := NetConv.call_turn E hker hdev heps hlast.1 hlast.2.2 a1 b1 (b3.trans a3.symm) a2 b2 hR f hc
        split
        · rename_i e2 he
          cases he.symm.trans this
        · rename_i g' he
          cases Except.ok.inj (he.symm.trans this)
          exact h
    | _ :: _ :: _, h => simp [netSmallLoop] at h
  | cons l ls ih =>
    intro hl os o f ho x h
    match os, h with
    | [], h => simp [netSmallLoop] at h
    | o' :: os, h =>
      obtain ⟨a1, a2, a3⟩ := ho o (by simp)
      obtain ⟨b1, b2, b3⟩ := ho o' (by simp)
      obtain ⟨l1, l2, l3⟩ := hl l (by simp)
      rw [netSmallLoop_cons] at h
      refine (netSmallLoop_cons E (N.turn R) (o.turn R) (o'.turn R) f _ _ _).trans ?_
      cases hc : l.conv.call E o.c o'.c l.convRadius f with
      | error e => rw [hc] at h; cases h
      | ok u =>
        rw [hc] at h
        have := NetConv.call_turn E hker hdev heps l1 l3 a1 b1 (b3.trans a3.symm) a2 b2 hR f hc
        have hi := ih (fun l hl' => hl l (by simp [hl'])) os o' (E.bnAct l.bn2 (l.lin.apply (E.bnAct l.bn1 u)))
          (fun x hx => ho x (List.mem_cons_of_mem _ hx)) x h
        split
        · rename_i e2 he
          cases he.symm.trans this
        · rename_i g' he
          cases Except.ok.inj (he.symm.trans this)
          exact hi

theorem netSmall_turn (E : NetEnv) (hker : E.ker = gauss) (hdev : E.dev = .gpu) (heps : 0 < E.eps) (N : NetSmall (k + 2)) (hN : N.Ok)
    (lower : String → String) (mode : String) (hmode : lower mode ∈ ["poisson", "poisson disk", "poisson_disk"]) {V : ℕ}
    {points : List (List (Fin (k + 2) → ℝ))} {sizes : List ℕ} (hP : PaddedOk V points sizes) (hne : ∀ s ∈ sizes, 0 < s) (hB : points ≠ [])
    {R : Fin (k + 2) → Fin (k + 2) → ℝ} (hR : Orthonormal' R) (feats : List (List (ℕ → ℝ))) (rows : List (ℕ → ℝ))
    (h : N.Call E lower mode points.length V points feats sizes (.ok rows)) :
    (N.turn R).Call E lower mode points.length V (turnShapes R points) feats sizes (.ok rows) := by
  have hrs : ∀ r ∈ N.levels.map LevelSmall.sampleRadius ++ [N.lastSampleRadius], 0 < r := by
    intro r hr
    rcases List.mem_append.1 hr with hr | hr
    · obtain ⟨l, hl, rfl⟩ := List.mem_map.1 hr
      exact (hN.levels l hl).2.1
    · rw [List.mem_singleton.1 hr]
      exact hN.last.2.1
  have hsz : (N.turn R).sizes = ((N.levels.map LevelSmall.sampleRadius ++ [N.lastSampleRadius])).map oneSize := by
    unfold NetSmall.sizes NetSmall.turn oneSize
    simp [List.map_map, Function.comp_def]
  have hlen : (turnShapes R points).length = points.length := List.length_map _
  have := call_turn (rows := rows) (L := fun H => N.logits E H feats)
    (L' := fun H => (N.turn R).logits E H feats) hker hdev heps hR hmode hrs hP hne hB ?_ h
  · unfold NetSmall.Call
    rw [hsz]
    rw [hlen] at this ⊢
    exact this
  intro H H' o os hc hgood hcl hr
  unfold NetSmall.logits at hr ⊢
  rw [hc] at hr
  rw [hcl]
  dsimp only at hr ⊢
  rw [flattenFeatures_turn]
  cases hf : (o.flattenFeatures feats).1 with
  | error e => rw [hf] at hr; cases hr
  | ok f0 =>
    rw [hf] at hr
    dsimp only at hr ⊢
    cases hl : netSmallLoop E N o f0 os N.levels with
    | error e => rw [hl] at hr; cases hr
    | ok x =>
      rw [hl] at hr
      have hu := netSmallLoop_turn E hker hdev heps N hN.last hR o.c.B N.levels hN.levels os o f0 hgood x hl
      split
      · rename_i e he
        cases he.symm.trans hu
      · rename_i p' g' he
        cases Except.ok.inj (he.symm.trans hu)
        exact hr

theorem NetSmall.turn_ok {R : Fin (k + 2) → Fin (k + 2) → ℝ} (hR : Orthonormal' R) {N : NetSmall (k + 2)} (h : N.Ok) : (N.turn R).Ok := by
  refine ⟨⟨NetConv.turn_ok h.last.1, h.last.2.1, h.last.2.2⟩, fun l hl => ?_⟩
  obtain ⟨l', hl', rfl⟩ := List.mem_map.1 hl
  obtain ⟨a, b, c⟩ := h.levels l' hl'
  exact ⟨NetConv.turn_ok a, b, c⟩

theorem NetSmall.turn_back {R : Fin D → Fin D → ℝ} (hR : Orthonormal' R) (N : NetSmall D) : (N.turn R).turn (flipped R) = N := by
  obtain ⟨ls, la, r1, r2, hd⟩ := N
  unfold NetSmall.turn
  simp only [List.map_map, Function.comp_def, NetConv.turn_back hR, NetSmall.mk.injEq, and_true]
  exact List.map_id' _

/-- **C171, the small network of the scripts**: the same for `modelnet40_small.py`. -/
theorem C171_small (E : NetEnv) (hker : E.ker = gauss) (hdev : E.dev = .gpu) (heps : 0 < E.eps) (N : NetSmall (k + 2)) (hN : N.Ok)
    (lower : String → String) (mode : String) (hmode : lower mode ∈ ["poisson", "poisson disk", "poisson_disk"]) {V : ℕ}
    {points : List (List (Fin (k + 2) → ℝ))} {sizes : List ℕ} (hP : PaddedOk V points sizes) (hne : ∀ s ∈ sizes, 0 < s) (hB : points ≠ [])
    {R : Fin (k + 2) → Fin (k + 2) → ℝ} (hR : Orthonormal' R) (feats : List (List (ℕ → ℝ))) (rows : List (ℕ → ℝ)) :
    (N.turn R).Call E lower mode points.length V (turnShapes R points) feats sizes (.ok rows) ↔
      N.Call E lower mode points.length V points feats sizes (.ok rows) := by
  constructor
  · intro h
    have hlen : (turnShapes R points).length = points.length := List.length_map _
    rw [← hlen] at h
    have := netSmall_turn E hker hdev heps (N.turn R) (NetSmall.turn_ok hR hN) lower mode
      hmode (hP.turn R) hne (by simpa [turnShapes] using hB) (flipped_orthonormal hR) feats rows h
    rw [NetSmall.turn_back hR, turnShapes_back hR, hlen] at this
    exact this
  · exact netSmall_turn E hker hdev heps N hN lower mode hmode hP hne hB hR feats rows

end

/-- Four points in a row. -/
def turnRow (s : ℚ) : Cloud (Fin 2 → ℚ) :=
  ⟨4, fun i d => if d.val = 0 then s * ((![0, 14, 16, 35] : Fin 4 → ℚ) i) else 0, fun _ => 0, 1⟩

/-- **C171, negation for cell averages**: the cells do not turn along.  Four points in a row have three averages, and four after a
reflection. -/
theorem C171_average_false :
    (cellAverage (⟨turnRow 1, fun _ => 10, 1 / 10 ^ 9⟩ : Grid 2 ℚ) 1).n = 3 ∧
    (cellAverage (⟨turnRow (-1), fun _ => 10, 1 / 10 ^ 9⟩ : Grid 2 ℚ) 1).n = 4 ∧
    ∀ i, (turnRow (-1)).pts i = fun d => if d.val = 0 then -(turnRow 1).pts i d else (turnRow 1).pts i d := by
  refine ⟨by decide +kernel, by decide +kernel, fun i => ?_⟩
  funext d
  show (if d.val = 0 then -1 * _ else 0 : ℚ) = if d.val = 0 then -(if d.val = 0 then 1 * _ else 0) else (if d.val = 0 then 1 * _ else 0)
  by_cases h : d.val = 0
  · rw [if_pos h, if_pos h, if_pos h]
    ring
  · rw [if_neg h, if_neg h, if_neg h]

/-- The hypotheses of `C171_tutorial` are met: the notebook's network, for any rotation of the plane. -/
example (a : ℝ) : ∃ rows, exTut.Call { exEnv with ker := gauss } id "poisson" 2 [[![0, 0], ![3, 0]], [![2, 0], ![2, 5]]]
      [[fun _ => 1, fun _ => 0], [fun _ => 2, fun _ => 3]] (.ok rows) ∧
    (exTut.turn ![![Real.cos a, -Real.sin a], ![Real.sin a, Real.cos a]]).Call { exEnv with ker := gauss } id "poisson" 2
      (turnShapes ![![Real.cos a, -Real.sin a], ![Real.sin a, Real.cos a]] [[![0, 0], ![3, 0]], [![2, 0], ![2, 5]]])
      [[fun _ => 1, fun _ => 0], [fun _ => 2, fun _ => 3]] (.ok rows) := by
  have he : 0 < ({ exEnv with ker := gauss } : NetEnv).eps := by norm_num [exEnv]
  have hV : ∀ s ∈ ([[![0, 0], ![3, 0]], [![2, 0], ![2, 5]]] : List (List (Fin 2 → ℝ))), s.length = 2 := by simp
  obtain ⟨rows, h⟩ := (C129_returns { exEnv with ker := gauss } rfl he exTut exTut_ok id "poisson" (by simp) hV (by simp) (by simp)
    (feats := [[fun _ => 1, fun _ => 0], [fun _ => 2, fun _ => 3]]) rfl (by simp)).1
  exact ⟨rows, h, (C171_tutorial _ rfl rfl he exTut exTut_ok id "poisson" (by simp) (by norm_num) hV (by simp)
    (rot2_orthonormal a) _ _).2 h⟩

end PC
