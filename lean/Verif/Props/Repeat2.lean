import Verif.Props.Repeat
import Verif.Props.Units2

/-!
# C135: samples and hierarchies of a cloud with repeated points

Poisson samples depend only on the set of places of the points of each batch element; cell averages do
not change if every point is recorded equally often.
-/

set_option linter.unusedVariables false
set_option linter.unusedSectionVars false

namespace PC

section
variable {K : Type*} [Field K] [LinearOrder K] [IsStrictOrderedRing K] [FloorRing K] {k : ℕ}

/-- Specification: the batch elements of two clouds occupy the same places, whatever the numbers and the
order of the points at each place are. -/
structure SamePlaces {D : ℕ} (c c' : Cloud (Fin D → K)) : Prop where
  size : c'.B = c.B
  there : ∀ i, ∃ j, c'.pts j = c.pts i ∧ c'.batch j = c.batch i
  back : ∀ j, ∃ i, c'.pts j = c.pts i ∧ c'.batch j = c.batch i

theorem SamePlaces.symm {D : ℕ} {c c' : Cloud (Fin D → K)} (s : SamePlaces c c') : SamePlaces c' c :=
  ⟨s.size.symm, fun j => (s.back j).imp fun _ h => ⟨h.1.symm, h.2.symm⟩,
    fun i => (s.there i).imp fun _ h => ⟨h.1.symm, h.2.symm⟩⟩

theorem Repeats.places {D : ℕ} {c c' : Cloud (Fin D → K)} {m : ℕ} (s : Repeats c c' m) (hm : 0 < m) (hB : c'.B = c.B) :
    SamePlaces c c' :=
  ⟨hB, fun i => (s.exists_src hm i).imp fun j h => ⟨by rw [s.pts, h], by rw [s.batch, h]⟩,
    fun j => ⟨s.src j, s.pts j, s.batch j⟩⟩

theorem poisson_places {dev dev' : Device} (g g' : Grid (k + 2) K) {r : K} (s : SamePlaces g.c g'.c)
    {eq eq' : Bool} {nb : Pairs g.c.n g.sortedCloud.n} {nb' : Pairs g'.c.n g'.sortedCloud.n}
    (hnew : Nbh.new dev g (fun _ => r) none = .ok ⟨g, fun _ => r, g.sortedCloud, eq, nb⟩)
    (hnew' : Nbh.new dev' g' (fun _ => r) none = .ok ⟨g', fun _ => r, g'.sortedCloud, eq', nb'⟩)
    (hreg : Regular (⟨g, fun _ => r, g.sortedCloud, eq, nb⟩ : Nbh k K))
    (hreg' : Regular (⟨g', fun _ => r, g'.sortedCloud, eq', nb'⟩ : Nbh k K)) (out : List (Fin g.c.n))
    (hout : PoissonResult (⟨g, fun _ => r, g.sortedCloud, eq, nb⟩ : Nbh k K) out) :
    SamplingResult (⟨g', fun _ => r, g'.sortedCloud, eq', nb'⟩ : Nbh k K) 0
      ((poissonSample (⟨g, fun _ => r, g.sortedCloud, eq, nb⟩ : Nbh k K) out).1) := by
  have hout := (C110_poisson_results dev _ _ _ hnew hreg _).1 hout
  obtain ⟨o1, o2⟩ := hout
  choose f hf using s.there
  let φ : Fin g.c.n → Fin g'.c.n := fun q => g'.perm.symm (f (g.perm q))
  have hb : ∀ q, g'.sortedBatch (φ q) = g.sortedBatch q := by
    intro q
    exact (congrArg g'.c.batch (Equiv.apply_symm_apply g'.perm _)).trans (hf _).2
  have hp : ∀ q, g'.sortedPts (φ q) = g.sortedPts q := by
    intro q
    exact (congrArg g'.c.pts (Equiv.apply_symm_apply g'.perm _)).trans (hf _).1
  have hout' : PoissonResult (⟨g', fun _ => r, g'.sortedCloud, eq', nb'⟩ : Nbh k K) (out.map φ) := by
    refine (C110_poisson_results dev' _ _ _ hnew' hreg' _).2 ⟨?_, ?_⟩
    · rw [List.pairwise_map]
      refine o1.imp fun {a b} hab => ?_
      rintro ⟨q1, q2⟩
      refine hab ⟨?_, ?_⟩
      · have : g'.sortedBatch (φ b) = g'.sortedBatch (φ a) := q1
        rwa [hb, hb] at this
      · have : normLt (fun d => g'.sortedPts (φ b) d - g'.sortedPts (φ a) d) r := q2
        rwa [hp, hp] at this
    · intro q
      obtain ⟨i, hi1, hi2⟩ := s.back (g'.perm q)
      obtain ⟨u, hu, u1, u2⟩ := o2 (g.perm.symm i)
      have e1 : g.sortedBatch (g.perm.symm i) = g'.sortedBatch q :=
        (congrArg g.c.batch (Equiv.apply_symm_apply g.perm i)).trans hi2.symm
      have e2 : g.sortedPts (g.perm.symm i) = g'.sortedPts q :=
        (congrArg g.c.pts (Equiv.apply_symm_apply g.perm i)).trans hi1.symm
      have u1 : g.sortedBatch (g.perm.symm i) = g.sortedBatch u := u1
      have u2 : normLt (fun d => g.sortedPts (g.perm.symm i) d - g.sortedPts u d) r := u2
      refine ⟨φ u, List.mem_map_of_mem hu, ?_, ?_⟩
      · show g'.sortedBatch q = g'.sortedBatch (φ u)
        rw [hb, ← e1, u1]
      · show normLt (fun d => g'.sortedPts q d - g'.sortedPts (φ u) d) r
        rw [hp, ← e2]
        exact u2
  have hc : (poissonSample (⟨g', fun _ => r, g'.sortedCloud, eq', nb'⟩ : Nbh k K) (out.map φ)).1 =
      (poissonSample (⟨g, fun _ => r, g.sortedCloud, eq, nb⟩ : Nbh k K) out).1 := by
    refine cloud_eq (List.length_map _) (fun i => ?_) (fun i => ?_) s.size
    · show g'.sortedPts ((out.map φ).get i) = g.sortedPts (out.get (Fin.cast (List.length_map _) i))
      rw [← hp]
      exact congrArg g'.sortedPts (List.getElem_map φ)
    · show g'.sortedBatch ((out.map φ).get i) = g.sortedBatch (out.get (Fin.cast (List.length_map _) i))
      rw [← hb]
      exact congrArg g'.sortedBatch (List.getElem_map φ)
  rw [← hc]
  exact .poisson _ hout'

/-- **C135, Poisson sampling**: the possible samples depend only on the places of the points, not on how often and in which order
they are recorded. -/
theorem C135_poisson (c c' : Cloud (Fin (k + 2) → K)) (s : SamePlaces c c') (hv : c.Valid) (hv' : c'.Valid) {r eps eps' : K} (hr : 0 < r)
    (heps : 0 < eps) (heps' : 0 < eps') (dev dev' : Device) (h h' : Nbh k K)
    (hnew : Nbh.new dev (⟨c, fun _ => r, eps⟩ : Grid (k + 2) K) (fun _ => r) none = .ok h)
    (hnew' : Nbh.new dev' (⟨c', fun _ => r, eps'⟩ : Grid (k + 2) K) (fun _ => r) none = .ok h') (t : Cloud (Fin (k + 2) → K)) :
    SamplingResult h' 0 t ↔ SamplingResult h 0 t := by
  obtain ⟨e1, e2, e3, _, _⟩ := new_pairs hnew
  obtain ⟨e1', e2', e3', _, _⟩ := new_pairs hnew'
  have hreg : Regular h := by
    refine ⟨?_, ?_, ?_, ?_, ?_⟩
    · rw [e1]; exact hv
    · rw [e2]; exact hr
    · intro d; rw [e2]
    · rw [e1, e2]
    · rw [e1]; exact heps
  have hreg' : Regular h' := by
    refine ⟨?_, ?_, ?_, ?_, ?_⟩
    · rw [e1']; exact hv'
    · rw [e2']; exact hr
    · intro d; rw [e2']
    · rw [e1', e2']
    · rw [e1']; exact heps'
  obtain ⟨g, rad, smp, eq, nb⟩ := h
  obtain ⟨g', rad', smp', eq', nb'⟩ := h'
  simp only [Option.getD_none] at e1 e2 e3 e1' e2' e3'
  subst e1 e2 e3 e1' e2' e3'
  constructor
  · intro ht
    cases ht with
    | poisson out hout => exact poisson_places _ _ s.symm hnew' hnew hreg' hreg out hout
  · intro ht
    cases ht with
    | poisson out hout => exact poisson_places _ _ s hnew hnew' hreg hreg' out hout

/-! ### Cell averages -/

theorem aabbMin_places {D : ℕ} {c c' : Cloud (Fin D → K)} (s : SamePlaces c c') (eps : K) (b : ℕ) (d : Fin D) :
    aabbMin eps c' b d = aabbMin eps c b d := by
  unfold aabbMin
  congr 1
  cases h : segMin (fun i => c.pts i d) c.batch b with
  | none =>
    rw [segMin_eq_none] at h ⊢
    intro j hj
    obtain ⟨i, _, h2⟩ := s.back j
    exact h i (h2.symm.trans hj)
  | some v =>
    rw [segMin_eq_some] at h ⊢
    obtain ⟨⟨i, hi, hv⟩, h2⟩ := h
    obtain ⟨j, j1, j2⟩ := s.there i
    refine ⟨⟨j, j2.trans hi, by rw [j1]; exact hv⟩, ?_⟩
    intro j hj
    obtain ⟨i, i1, i2⟩ := s.back j
    have := h2 i (i2.symm.trans hj)
    rw [i1]
    exact this

/-- **C135, cell averages**: if every point is recorded `m` times, the cell averages are the same. -/
theorem C135_average {c c' : Cloud (Fin (k + 2) → K)} {m : ℕ} (s : Repeats c c' m) (hm : 0 < m) (hB : c'.B = c.B) (cs : Fin (k + 2) → K)
    (eps : K) (B : ℕ) (hv : c.Valid) (hcs : ∀ d, 0 < cs d) (heps : 0 < eps) :
    SameCloud (cellAverage (⟨c, cs, eps⟩ : Grid (k + 2) K) B) (cellAverage (⟨c', cs, eps⟩ : Grid (k + 2) K) B) := by
  have hv' : c'.Valid := fun i => by rw [s.batch, hB]; exact hv _
  obtain ⟨f, hf⟩ := C29_cell_average (⟨c, cs, eps⟩ : Grid (k + 2) K) B hv hcs heps
  obtain ⟨f', hf'⟩ := C29_cell_average (⟨c', cs, eps⟩ : Grid (k + 2) K) B hv' hcs heps
  have hpl := s.places hm hB
  have hcell : ∀ i j, f' i = f' j ↔ f (s.src i) = f (s.src j) := by
    intro i j
    refine (hf'.cells i j).trans (Iff.trans ?_ (hf.cells (s.src i) (s.src j)).symm)
    show c'.batch i = c'.batch j ∧ SameCell eps c' cs (c'.batch i) (c'.pts i) (c'.pts j) ↔
      c.batch (s.src i) = c.batch (s.src j) ∧ SameCell eps c cs (c.batch (s.src i)) (c.pts (s.src i)) (c.pts (s.src j))
    unfold SameCell
    simp only [aabbMin_places hpl, s.pts, s.batch]
  have hrep : ∀ u, ∃ i, f (s.src i) = u := by
    intro u
    obtain ⟨p, hp⟩ := hf.surj u
    obtain ⟨i, rfl⟩ := s.exists_src hm p
    exact ⟨i, hp⟩
  choose ρ hρ using hrep
  have hφ : ∀ i, f' (ρ (f (s.src i))) = f' i := fun i => (hcell _ _).2 (hρ _)
  have hbij : Function.Bijective (fun u => f' (ρ u)) := by
    constructor
    · intro u v huv
      have := (hcell _ _).1 huv
      rwa [hρ, hρ] at this
    · intro u
      obtain ⟨i, hi⟩ := hf'.surj u
      exact ⟨f (s.src i), (hφ i).trans hi⟩
  have hm' : (m : K) ≠ 0 := by exact_mod_cast hm.ne'
  refine ⟨rfl, Equiv.ofBijective _ hbij, fun u => ⟨?_, ?_⟩⟩
  · funext d
    rw [Equiv.ofBijective_apply, hf.mean, hf'.mean]
    have hfil : (Finset.univ.filter (fun i => f' i = f' (ρ u))) = Finset.univ.filter (fun i => f (s.src i) = u) := by
      ext i
      simp only [Finset.mem_filter, Finset.mem_univ, true_and]
      rw [hcell, hρ]
    have h1 := s.sum_filter (fun p => f p = u) (fun p => c.pts p d)
    have h2 := s.sum_filter (fun p => f p = u) (fun _ => 1)
    simp only [Finset.sum_const, nsmul_eq_mul, mul_one] at h2
    show (∑ i ∈ Finset.univ.filter (fun i => f' i = f' (ρ u)), c'.pts i d) /
      ((Finset.univ.filter (fun i => f' i = f' (ρ u))).card : K) =
      (∑ i ∈ Finset.univ.filter (fun i => f i = u), c.pts i d) / ((Finset.univ.filter (fun i => f i = u)).card : K)
    rw [hfil, h2]
    simp only [s.pts]
    rw [h1]
    exact mul_div_mul_left _ _ hm'
  · rw [Equiv.ofBijective_apply]
    refine (hf'.batch (ρ u)).trans ?_
    show c'.batch (ρ u) = _
    rw [s.batch]
    have := hf.batch (s.src (ρ u))
    rw [hρ] at this
    exact this.symm

/-! ### Hierarchies -/

/-- One direction of `C135_hierarchy`. -/
theorem levels_places {eps : K} (heps : 0 < eps) {lower : String → String}
    {mode : String} (hmode : lower mode ∈ ["poisson", "poisson disk", "poisson_disk"]) {bs : Option (List ℕ)} {a : K} {as : List (Arg K)}
    (ha : 0 < a) (o o' : CloudObj (Fin (k + 2) → K)) (s : SamePlaces o.c o'.c) (hv : o.c.Valid) (hv' : o'.c.Valid) (hn' : 0 < o'.c.n)
    (ls : List (CloudObj (Fin (k + 2) → K) × (Fin (k + 2) → K) × Nbh k K))
    (h : Levels .gpu eps lower mode bs o (oneSize a :: as) (.ok ls)) :
    ∃ ls', Levels .gpu eps lower mode bs o' (oneSize a :: as) (.ok ls') ∧ ls'.map (·.1) = ls.map (·.1) := by
  cases h with
  | cons _ _ _ o1 cs nh rest hst hl =>
    cases hst with
    | ok l h c hl0 hnew hsr hb =>
      obtain ⟨l0, hl1, hvec⟩ := completeCellSizes_one (k := k) a
      rw [hl1] at hl0
      cases hl0
      rw [hvec] at hnew
      obtain ⟨h', hnew'⟩ := nbhNew_gpu o'.c hv' hn' ha heps
      have h2 : SampleResult h' lower mode (.ok c) := by
        obtain ⟨out, ho, hc⟩ := ((C28_sample_modes_partial nh lower mode).1 hmode _).1 hsr
        have hc := Except.ok.inj hc
        subst hc
        have h1 := (C135_poisson o.c o'.c s hv hv' ha heps heps _ _ nh h' hnew hnew' _).2 (.poisson out ho)
        rw [(C28_sample_modes_partial h' lower mode).1 hmode]
        generalize ht : (poissonSample nh out).1 = t at h1
        cases h1 with
        | poisson out' ho' => exact ⟨out', ho', rfl⟩
      have h3 := LevelStep.ok (dev := .gpu) (eps := eps) (lower := lower) (mode := mode) (bs := bs) (o := o') (a := oneSize a) l
        h' _ hl1 (by rw [hvec]; exact hnew') h2 hb
      exact ⟨_, Levels.cons _ _ _ _ _ _ _ h3 hl, rfl⟩

/-- **C135, hierarchies**: after the first level, the possible levels of a hierarchy of Poisson samples are the same, if the points
are recorded differently often or in another order. -/
theorem C135_hierarchy {eps : K} (heps : 0 < eps) {lower : String → String}
    {mode : String} (hmode : lower mode ∈ ["poisson", "poisson disk", "poisson_disk"]) {a : K} {as : List (Arg K)}
    (ha : 0 < a) (o o' : CloudObj (Fin (k + 2) → K)) (s : SamePlaces o.c o'.c) (hbs : o'.batchShape = o.batchShape) (hv : o.c.Valid)
    (hv' : o'.c.Valid) (hn' : 0 < o'.c.n) (H : Hier k K) (hH : HierNew .gpu eps lower mode o (oneSize a :: as) (.ok H)) :
    ∃ H' os, HierNew .gpu eps lower mode o' (oneSize a :: as) (.ok H') ∧ H.clouds = o :: os ∧ H'.clouds = o' :: os := by
  rcases hH with ⟨ls, hl, he⟩ | ⟨e, _, he⟩
  · have he := Except.ok.inj he
    subst he
    obtain ⟨ls', h2, h3⟩ := levels_places heps hmode ha o o' s hv hv' hn' ls hl
    refine ⟨_, _, Or.inl ⟨ls', by rw [hbs]; exact h2, rfl⟩, rfl, ?_⟩
    rw [h3]
  · cases he

end

/-! ### The network of the tutorial -/

section
variable {k : ℕ}

theorem exists_copies {α β γ : Type*} [Fintype α] [Fintype β] [DecidableEq γ] (u : α → γ) (v : β → γ) (m : ℕ)
    (h : ∀ x, (Finset.univ.filter (fun b => v b = x)).card = m * (Finset.univ.filter (fun a => u a = x)).card) :
    ∃ e : β ≃ Fin m × α, ∀ b, v b = u (e b).2 := by
  have hc : ∀ x, Fintype.card {b // v b = x} = Fintype.card {p : Fin m × α // u p.2 = x} := by
    intro x
    rw [Fintype.card_subtype, Fintype.card_subtype, h]
    have : (Finset.univ.filter (fun p : Fin m × α => u p.2 = x)) = Finset.univ ×ˢ (Finset.univ.filter (fun a => u a = x)) := by
      ext p
      simp
    rw [this, Finset.card_product, Finset.card_univ, Fintype.card_fin]
  have e := fun x => Fintype.equivOfCardEq (hc x)
  refine ⟨(Equiv.sigmaFiberEquiv v).symm.trans ((Equiv.sigmaCongrRight e).trans (Equiv.sigmaFiberEquiv (fun p : Fin m × α => u p.2))),
    fun b => ?_⟩
  exact (e (v b) ⟨b, rfl⟩).2.symm

theorem count_members {α β : Type*} [DecidableEq β] (c : Cloud α) (g : Fin c.n → β) (b : ℕ) (y : β) :
    ((c.members b).map g).count y = (Finset.univ.filter (fun i => (c.batch i, g i) = (b, y))).card := by
  rw [card_filter_eq, ← List.countP_eq_length_filter, List.count, List.countP_map]
  unfold Cloud.members
  rw [List.countP_filter]
  refine List.countP_congr fun i _ => ?_
  simp [and_comm]

theorem count_copies {β : Type*} [DecidableEq β] {l l' : List β} {m : ℕ} (h : l'.Perm (List.replicate m l).flatten) (y : β) :
    l'.count y = m * l.count y := by
  rw [h.count_eq, List.count_flatten]
  simp

/-- Clouds whose elements list the points and features `m` times, in any order. -/
theorem repeats_of_members {c c' : Cloud (Fin (k + 2) → ℝ)} {m : ℕ} (f : Fin c.n → ℕ → ℝ) (f' : Fin c'.n → ℕ → ℝ)
    (h : ∀ b, ((c'.members b).map (fun i => (c'.pts i, f' i))).Perm
      (List.replicate m ((c.members b).map (fun i => (c.pts i, f i)))).flatten) :
    ∃ s : Repeats c c' m, ∀ i, f' i = f (s.src i) := by
  classical
  obtain ⟨e, he⟩ := exists_copies (fun i => (c.batch i, (c.pts i, f i))) (fun i => (c'.batch i, (c'.pts i, f' i))) m (by
    rintro ⟨b, y⟩
    rw [← count_members, ← count_members]
    exact count_copies (h b) y)
  refine ⟨⟨fun i => (e i).2, fun p => ?_, fun i => ?_, fun i => ?_⟩, fun i => ?_⟩
  · have : (Finset.univ.filter (fun i => (e i).2 = p)) = (Finset.univ : Finset (Fin m)).image (fun r => e.symm (r, p)) := by
      ext i
      simp only [Finset.mem_filter, Finset.mem_univ, true_and, Finset.mem_image]
      constructor
      · intro hi
        exact ⟨(e i).1, by rw [← hi]; exact e.symm_apply_apply i⟩
      · rintro ⟨r, rfl⟩
        simp
    rw [this, Finset.card_image_of_injective _ (fun r r' hr => by simpa using hr), Finset.card_univ, Fintype.card_fin]
  · exact congrArg (fun x => x.2.1) (he i)
  · exact congrArg (fun x => x.1) (he i)
  · exact congrArg (fun x => x.2.2) (he i)

/-- Specification: the first convolution is `MCConv`, which divides by the densities. -/
def NetTut.StartsMC {D : ℕ} (N : NetTut D) : Prop :=
  ∃ L : MCLayer ℝ, (match N.levels with | [] => N.last | l :: _ => l.conv) = .mc L

theorem mc_call_repeats (E : NetEnv) (hdev : E.dev = .gpu) (heps : 0 < E.eps) (L : MCLayer ℝ) {c c' cout : Cloud (Fin (k + 2) → ℝ)} {m : ℕ}
    (s : Repeats c c' m) (hm : 0 < m) (hB : c'.B = c.B) {radius : ℝ} (hr : 0 < radius) (hv : c.Valid) (hn : 0 < c.n) (hvo : cout.Valid)
    (hBo : cout.B = c.B) (hno : 0 < cout.n) (f : Fin c.n → ℕ → ℝ) (f' : Fin c'.n → ℕ → ℝ) (hf : ∀ i, f' i = f (s.src i)) :
    (NetConv.mc L : NetConv (k + 2)).call E c' cout radius f' = (NetConv.mc L : NetConv (k + 2)).call E c cout radius f := by
  have hv' : c'.Valid := fun i => by rw [s.batch, hB]; exact hv _
  have hn' : 0 < c'.n := by
    obtain ⟨i, _⟩ := s.exists_src hm ⟨0, hn⟩
    exact i.pos
  have hf' : f' = fun i => f (s.src i) := funext hf
  subst hf'
  obtain ⟨g, h⟩ := NetConv.call_returns E hdev heps (L := (NetConv.mc L : NetConv (k + 2))) trivial hr hv hvo hBo hn hno f
  obtain ⟨g', h'⟩ := NetConv.call_returns E hdev heps (L := (NetConv.mc L : NetConv (k + 2))) trivial hr hv' hvo (hBo.trans hB.symm) hn' hno
    (fun i => f (s.src i))
  rw [h, h']
  exact congrArg Except.ok (C135_mcconv s hm E.ker E.act E.dev E.dev E.eps E.eps L radius _ ⟨hv, hr, heps⟩ ⟨hv', hr, heps⟩ f g g' h h')

theorem netTutLoop_repeats (E : NetEnv) (hdev : E.dev = .gpu) (heps : 0 < E.eps) (N : NetTut (k + 2)) (hN : N.Ok) (hmc : N.StartsMC)
    {o o' : CloudObj (Fin (k + 2) → ℝ)} {m : ℕ} (s : Repeats o.c o'.c m) (hm : 0 < m) (hB : o'.c.B = o.c.B) (hv : o.c.Valid) (hn : 0 < o.c.n)
    (os : List (CloudObj (Fin (k + 2) → ℝ))) (hos : ∀ x ∈ os, x.c.Valid ∧ 0 < x.c.n ∧ x.c.B = o.c.B)
    (f : Fin o.c.n → ℕ → ℝ) (f' : Fin o'.c.n → ℕ → ℝ) (hf : ∀ i, f' i = f (s.src i)) :
    netTutLoop E N o' f' os N.levels = netTutLoop E N o f os N.levels := by
  obtain ⟨L, hL⟩ := hmc
  cases hlv : N.levels with
  | nil =>
    rw [hlv] at hL
    match os with
    | [] => rfl
    | [x] =>
      obtain ⟨a1, a2, a3⟩ := hos x (by simp)
      rw [netTutLoop_single, netTutLoop_single]
      have hL : N.last = .mc L := hL
      rw [hL]
      rw [mc_call_repeats E hdev heps L s hm hB hN.last.2.2 hv hn a1 a3 a2 f f' hf]
    | _ :: _ :: _ => rfl
  | cons l ls =>
    rw [hlv] at hL
    match os with
    | [] => rfl
    | x :: os =>
      obtain ⟨a1, a2, a3⟩ := hos x (by simp)
      rw [netTutLoop_cons, netTutLoop_cons]
      have hL : l.conv = .mc L := hL
      have hr := (hN.levels l (by rw [hlv]; simp)).2.2
      rw [hL, mc_call_repeats E hdev heps L s hm hB hr hv hn a1 a3 a2 f f' hf]

theorem padded_flatten_ok {α β : Type*} {V B : ℕ} {points : List (List α)} {sizes : List ℕ} (hP : PaddedOk V points sizes)
    {o : CloudObj α} (ho : CloudObj.newPadded [points.length] V points (some sizes) (some B) = .ok o)
    {feats : List (List β)} (hf : feats.length = points.length) (hfV : ∀ row ∈ feats, row.length = V) :
    ∃ f, (o.flattenFeatures feats).1 = .ok f := by
  obtain ⟨_, p2, p3, p4, p5, p6, p7, p8, _⟩ := newPadded_spec hP.len hP.block hP.size ho
  have hg : o.getSizes = (.ok ([B], sizes), o) := by
    unfold CloudObj.getSizes
    rw [p5]
  unfold CloudObj.flattenFeatures
  rw [hg]
  dsimp only
  rw [dif_pos]
  · exact ⟨_, rfl⟩
  · rw [flattenRows_length V feats sizes (hf.trans hP.len.symm) hfV hP.size, ← flattenRows_length V points sizes hP.len.symm hP.block hP.size,
      ← p7, List.length_ofFn]

/-- Specification: every shape of the second batch lists the points of the first, with their features, `m` times, in any order. -/
def RepeatShapes {α β : Type*} (m : ℕ) (points points' : List (List α)) (feats feats' : List (List β)) : Prop :=
  ∀ b, ((List.zipWith List.zip points' feats').getD b []).Perm
    (List.replicate m ((List.zipWith List.zip points feats).getD b [])).flatten

/-- **C135, the network of the tutorial** with `MCConv` as its first convolution: if all points of all shapes are recorded `m` times, in
any order, the possible logits are the same. -/
theorem C135_tutorial (E : NetEnv) (hdev : E.dev = .gpu) (heps : 0 < E.eps) (N : NetTut (k + 2)) (hN : N.Ok) (hmc : N.StartsMC)
    (lower : String → String) (mode : String) (hmode : lower mode ∈ ["poisson", "poisson disk", "poisson_disk"]) {V m : ℕ} (hVpos : 0 < V)
    (hm : 0 < m) {points points' : List (List (Fin (k + 2) → ℝ))} (hV : ∀ p ∈ points, p.length = V) (hV' : ∀ p ∈ points', p.length = m * V)
    (hlen : points'.length = points.length) (hB : points ≠ []) {feats feats' : List (List (ℕ → ℝ))} (hfl : feats.length = points.length)
    (hfV : ∀ p ∈ feats, p.length = V) (hfl' : feats'.length = points'.length) (hfV' : ∀ p ∈ feats', p.length = m * V)
    (hrep : RepeatShapes m points points' feats feats') (rows : List (ℕ → ℝ)) :
    N.Call E lower mode (m * V) points' feats' (.ok rows) ↔ N.Call E lower mode V points feats (.ok rows) := by
  have hP := paddedOk_full hV
  have hP' := paddedOk_full hV'
  obtain ⟨o, ho⟩ := newPadded_returns hP
  obtain ⟨o', ho'⟩ := newPadded_returns hP'
  obtain ⟨p1, p2, p3, p4, p5, p6, p7, p8, p9⟩ := newPadded_spec hP.len hP.block hP.size ho
  obtain ⟨q1, q2, q3, q4, q5, q6, q7, q8, q9⟩ := newPadded_spec hP'.len hP'.block hP'.size ho'
  have hBpos : 0 < points.length := List.length_pos_iff.2 hB
  have hne := padded_noEmpty hP ho (fun s hs => by rw [List.eq_of_mem_replicate hs]; exact hVpos)
  have hne' := padded_noEmpty hP' ho' (fun s hs => by rw [List.eq_of_mem_replicate hs]; exact Nat.mul_pos hm hVpos)
  have hn : 0 < o.c.n := by
    obtain ⟨i, _⟩ := hne 0 (by omega)
    exact i.pos
  have hn' : 0 < o'.c.n := by
    obtain ⟨i, _⟩ := hne' 0 (by omega)
    exact i.pos
  have hBB : o'.c.B = o.c.B := by rw [q2, p2, hlen]
  obtain ⟨f, hf⟩ := padded_flatten_ok hP ho hfl hfV
  obtain ⟨f', hf'⟩ := padded_flatten_ok hP' ho' hfl' hfV'
  have hmem : ∀ b, ((o'.c.members b).map (fun i => (o'.c.pts i, f' i))).Perm
      (List.replicate m ((o.c.members b).map (fun i => (o.c.pts i, f i)))).flatten := by
    intro b
    rw [padded_features hP ho hfl hfV hf, padded_features hP' ho' hfl' hfV' hf']
    have t1 : ∀ {W : ℕ} {ps : List (List (Fin (k + 2) → ℝ))} {fs : List (List (ℕ → ℝ))} (hp : ∀ p ∈ ps, p.length = W),
        (((List.zipWith List.zip ps fs).getD b []).take ((List.replicate ps.length W).getD b 0)) =
          (List.zipWith List.zip ps fs).getD b [] := by
      intro W ps fs hp
      by_cases hb : b < (List.zipWith List.zip ps fs).length
      · have hb1 : b < ps.length := by rw [List.length_zipWith] at hb; omega
        apply List.take_of_length_le
        rw [List.getD_eq_getElem?_getD, List.getElem?_eq_getElem hb, List.getD_eq_getElem?_getD,
          List.getElem?_eq_getElem (by simpa using hb1)]
        simp only [Option.getD_some, List.getElem_zipWith, List.length_zip, List.getElem_replicate]
        exact (min_le_left _ _).trans (hp _ (List.getElem_mem _)).le
      · have : (List.zipWith List.zip ps fs).getD b [] = [] := by
          rw [List.getD_eq_getElem?_getD, List.getElem?_eq_none (by omega)]
          rfl
        rw [this, List.take_nil]
    rw [t1 hV, t1 hV']
    exact hrep b
  obtain ⟨s, hs⟩ := repeats_of_members f f' hmem
  have hpl := s.places hm hBB
  have hrs : ∀ r ∈ N.levels.map LevelTut.sampleRadius ++ [N.lastSampleRadius], 0 < r := by
    intro r hr
    rcases List.mem_append.1 hr with hr | hr
    · obtain ⟨l, hl, rfl⟩ := List.mem_map.1 hr
      exact (hN.levels l hl).2.1
    · rw [List.mem_singleton.1 hr]
      exact hN.last.2.1
  have hsz : N.sizes = (N.levels.map LevelTut.sampleRadius ++ [N.lastSampleRadius]).map oneSize := by
    unfold NetTut.sizes oneSize
    simp [List.map_map, Function.comp_def]
  obtain ⟨a, as, ha, hsz'⟩ : ∃ a as, 0 < a ∧ N.sizes = oneSize a :: as := by
    rw [hsz]
    cases hl : N.levels.map LevelTut.sampleRadius ++ [N.lastSampleRadius] with
    | nil => simp at hl
    | cons a as => exact ⟨a, as.map oneSize, hrs a (by rw [hl]; simp), rfl⟩
  have hgood : ∀ (H : Hier k ℝ) (os : List (CloudObj (Fin (k + 2) → ℝ))), HierNew .gpu E.eps lower mode o N.sizes (.ok H) → H.clouds = o :: os →
      ∀ x ∈ os, x.c.Valid ∧ 0 < x.c.n ∧ x.c.B = o.c.B := by
    intro H os hH hc
    rw [hsz] at hH
    rcases hH with ⟨ls, hl, he⟩ | ⟨e, _, he⟩
    · have he := Except.ok.inj he
      subst he
      obtain ⟨h1, _⟩ := levels_units (s := 1) heps heps one_pos (Or.inl hmode) _ hrs o p3 hn ls hl
      obtain ⟨_, rfl⟩ := List.cons.inj hc
      intro x hx
      obtain ⟨y, hy, rfl⟩ := List.mem_map.1 hx
      exact h1 y hy
    · cases he
  have hlog : ∀ (H H' : Hier k ℝ) (os : List (CloudObj (Fin (k + 2) → ℝ))), H.clouds = o :: os → H'.clouds = o' :: os →
      (∀ x ∈ os, x.c.Valid ∧ 0 < x.c.n ∧ x.c.B = o.c.B) → N.logits E H' feats' = N.logits E H feats := by
    intro H H' os h1 h2 h3
    unfold NetTut.logits
    rw [h1, h2]
    dsimp only
    rw [hf, hf']
    dsimp only
    rw [netTutLoop_repeats E hdev heps N hN hmc s hm hBB p3 hn os h3 f f' hs]
  unfold NetTut.Call
  rw [newPadded_noSizes, newPadded_noSizes, ho, ho', hdev]
  dsimp only
  constructor
  · rintro (⟨e, _, he⟩ | ⟨H', hH', hr⟩)
    · cases he
    · right
      rw [hsz'] at hH'
      obtain ⟨H, os, hH, c1, c2⟩ := C135_hierarchy heps hmode ha o' o hpl.symm (by rw [p4, q4, hlen]) q3 p3 hn H' hH'
      rw [← hsz'] at hH
      exact ⟨H, hH, hr.trans (hlog H H' os c2 c1 (hgood H os hH c2))⟩
  · rintro (⟨e, _, he⟩ | ⟨H, hH, hr⟩)
    · cases he
    · right
      have hH1 := hH
      rw [hsz'] at hH
      obtain ⟨H', os, hH', c1, c2⟩ := C135_hierarchy heps hmode ha o o' hpl (by rw [p4, q4, hlen]) p3 q3 hn' H hH
      rw [← hsz'] at hH'
      exact ⟨H', hH', hr.trans (hlog H H' os c1 c2 (hgood H os hH1 c1)).symm⟩

/-- The hypotheses of `C135_tutorial` are met: two shapes of two points, each recorded twice in another order. -/
example : ∃ rows, exTut.Call exEnv id "poisson" 2 [[![0, 0], ![3, 0]], [![2, 0], ![2, 5]]]
      [[fun _ => 1, fun _ => 0], [fun _ => 2, fun _ => 3]] (.ok rows) ∧
    exTut.Call exEnv id "poisson" 4 [[![0, 0], ![3, 0], ![0, 0], ![3, 0]], [![2, 0], ![2, 0], ![2, 5], ![2, 5]]]
      [[fun _ => 1, fun _ => 0, fun _ => 1, fun _ => 0], [fun _ => 2, fun _ => 2, fun _ => 3, fun _ => 3]] (.ok rows) := by
  have he : 0 < exEnv.eps := by norm_num [exEnv]
  have hV : ∀ s ∈ ([[![0, 0], ![3, 0]], [![2, 0], ![2, 5]]] : List (List (Fin 2 → ℝ))), s.length = 2 := by simp
  obtain ⟨rows, h⟩ := (C129_returns exEnv rfl he exTut exTut_ok id "poisson" (by simp) hV (by simp) (by simp)
    (feats := [[fun _ => 1, fun _ => 0], [fun _ => 2, fun _ => 3]]) rfl (by simp)).1
  refine ⟨rows, h, (C135_tutorial (m := 2)
    (points' := [[![0, 0], ![3, 0], ![0, 0], ![3, 0]], [![2, 0], ![2, 0], ![2, 5], ![2, 5]]])
    (feats := [[fun _ => 1, fun _ => 0], [fun _ => 2, fun _ => 3]])
    (feats' := [[fun _ => 1, fun _ => 0, fun _ => 1, fun _ => 0], [fun _ => 2, fun _ => 2, fun _ => 3, fun _ => 3]]) exEnv rfl he exTut exTut_ok ⟨_, rfl⟩ id "poisson" (by simp) (by norm_num) (by norm_num) hV
    (by simp) rfl (by simp) rfl (by simp) rfl (by simp) ?_ rows).2 h⟩
  intro b
  match b with
  | 0 => exact List.Perm.refl _
  | 1 => exact (List.Perm.swap _ _ [_]).cons _
  | _ + 2 => exact List.Perm.refl _

end

end PC
