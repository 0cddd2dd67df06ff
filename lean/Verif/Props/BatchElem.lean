import Verif.Props.Blocks2
import Verif.Props.Pooling
import Verif.Props.Hierarchy

/-!
# Property C94: batch elements do not influence each other
-/

set_option linter.unusedVariables false
set_option linter.unusedSectionVars false

namespace PC

section
variable {K : Type*} [Field K] [LinearOrder K] [IsStrictOrderedRing K] [FloorRing K] {k : ℕ}

/-- Specification: element `b` of the cloud `c` and element `b'` of the cloud `c'`
consist of the same points, in any order and at any places of the two clouds. -/
structure SameElem {D : ℕ} (c c' : Cloud (Fin D → K)) (b b' : ℕ) where
  e : {p : Fin c.n // c.batch p = b} ≃ {p : Fin c'.n // c'.batch p = b'}
  pts : ∀ p, c'.pts (e p) = c.pts p

variable {D : ℕ} {c c' : Cloud (Fin D → K)} {b b' : ℕ}

/-- The same, seen from the other cloud. -/
def SameElem.symm (s : SameElem c c' b b') : SameElem c' c b' b :=
  ⟨s.e.symm, fun p => by rw [← s.pts, Equiv.apply_symm_apply]⟩

/-- The features of the common element agree. -/
def SameElem.Agree {β : Type*} (s : SameElem c c' b b') (f : Fin c.n → β) (f' : Fin c'.n → β) : Prop :=
  ∀ p, f' (s.e p) = f p

theorem SameElem.sum_filter (s : SameElem c c' b b') {M : Type*} [AddCommMonoid M] (P : Fin c.n → Prop)
    [DecidablePred P] (P' : Fin c'.n → Prop) [DecidablePred P'] (g : Fin c.n → M) (g' : Fin c'.n → M)
    (hP : ∀ p, P p → c.batch p = b) (hP' : ∀ p, P' p → c'.batch p = b') (hiff : ∀ p, P' (s.e p) ↔ P p)
    (hg : ∀ p, P p.1 → g' (s.e p) = g p) :
    ∑ p ∈ Finset.univ.filter P', g' p = ∑ p ∈ Finset.univ.filter P, g p := by
  symm
  refine Finset.sum_bij' (fun p hp => (s.e ⟨p, hP p (Finset.mem_filter.1 hp).2⟩).1)
    (fun p hp => (s.e.symm ⟨p, hP' p (Finset.mem_filter.1 hp).2⟩).1) ?_ ?_ ?_ ?_ ?_
  · intro p hp
    rw [Finset.mem_filter]
    exact ⟨Finset.mem_univ _, (hiff _).2 (Finset.mem_filter.1 hp).2⟩
  · intro p hp
    rw [Finset.mem_filter]
    refine ⟨Finset.mem_univ _, (hiff _).1 ?_⟩
    rw [Equiv.apply_symm_apply]
    exact (Finset.mem_filter.1 hp).2
  · intro p hp
    simp
  · intro p hp
    simp
  · intro p hp
    exact (hg ⟨p, _⟩ (Finset.mem_filter.1 hp).2).symm

theorem density_elem {D : ℕ} {c c' : Cloud (Fin (D + 1) → K)} {b b' : ℕ} (s : SameElem c c' b b') (ker : K → K)
    (bw radii : Fin (D + 1) → K) (p : {p : Fin c.n // c.batch p = b}) :
    density ker c' bw radii (s.e p) = density ker c bw radii p := by
  unfold density
  congr 1
  apply s.sum_filter
  · rintro q ⟨hq, _⟩
    rw [hq, p.2]
  · rintro q ⟨hq, _⟩
    rw [hq, (s.e p).2]
  · intro q
    rw [s.pts, s.pts, (s.e q).2, (s.e p).2, q.2, p.2]
    simp
  · intro q _
    rw [s.pts, s.pts]

theorem nbrs_elem {cin cin' cout cout' : Cloud (Fin D → K)} (s : SameElem cin cin' b b')
    (t : SameElem cout cout' b b') (radius : K) (i : {i : Fin cout.n // cout.batch i = b})
    (p : {p : Fin cin.n // cin.batch p = b}) :
    (s.e p).1 ∈ nbrs cin' cout' radius (t.e i) ↔ p.1 ∈ nbrs cin cout radius i := by
  unfold nbrs
  simp only [Finset.mem_filter, Finset.mem_univ, true_and]
  rw [s.pts, t.pts, (s.e p).2, (t.e i).2, p.2, i.2]
  simp

theorem nbrs_batch {cin cout : Cloud (Fin D → K)} {radius : K} {i : Fin cout.n} {p : Fin cin.n}
    (h : p ∈ nbrs cin cout radius i) : cin.batch p = cout.batch i := by
  unfold nbrs at h
  exact (Finset.mem_filter.1 h).2.1

/-- Sums over the neighbours. -/
theorem sum_nbrs_elem {cin cin' cout cout' : Cloud (Fin D → K)} (s : SameElem cin cin' b b')
    (t : SameElem cout cout' b b') (radius : K) (i : {i : Fin cout.n // cout.batch i = b}) {M : Type*}
    [AddCommMonoid M] (g : Fin cin.n → M) (g' : Fin cin'.n → M) (hg : ∀ p, g' (s.e p) = g p) :
    ∑ p ∈ nbrs cin' cout' radius (t.e i), g' p = ∑ p ∈ nbrs cin cout radius i, g p := by
  unfold nbrs
  apply s.sum_filter
  · rintro q ⟨hq, _⟩
    rw [hq, i.2]
  · rintro q ⟨hq, _⟩
    rw [hq, (t.e i).2]
  · intro q
    have := nbrs_elem s t radius i q
    unfold nbrs at this
    simpa only [Finset.mem_filter, Finset.mem_univ, true_and] using this
  · intro q _
    exact hg q

theorem maxOver_elem {cin cin' cout cout' : Cloud (Fin D → K)} (s : SameElem cin cin' b b')
    (t : SameElem cout cout' b b') (radius : K) (i : {i : Fin cout.n // cout.batch i = b})
    (g : Fin cin.n → K) (g' : Fin cin'.n → K) (hg : ∀ p, g' (s.e p) = g p) :
    maxOver (nbrs cin' cout' radius (t.e i)) g' = maxOver (nbrs cin cout radius i) g := by
  unfold maxOver
  by_cases h : (nbrs cin cout radius i.1).Nonempty
  · have h' : (nbrs cin' cout' radius (t.e i).1).Nonempty := by
      obtain ⟨p, hp⟩ := h
      exact ⟨_, (nbrs_elem s t radius i ⟨p, (nbrs_batch hp).trans i.2⟩).2 hp⟩
    rw [dif_pos h, dif_pos h']
    apply le_antisymm
    · apply Finset.sup'_le
      intro q hq
      have hqb : cin'.batch q = b' := (nbrs_batch hq).trans (t.e i).2
      have e1 : q = (s.e (s.e.symm ⟨q, hqb⟩)).1 := by rw [Equiv.apply_symm_apply]
      rw [e1, hg]
      apply Finset.le_sup' g
      rw [e1] at hq
      exact (nbrs_elem s t radius i _).1 hq
    · apply Finset.sup'_le
      intro p hp
      rw [← hg ⟨p, (nbrs_batch hp).trans i.2⟩]
      apply Finset.le_sup' g'
      exact (nbrs_elem s t radius i _).2 hp
  · have h' : ¬ (nbrs cin' cout' radius (t.e i).1).Nonempty := by
      rintro ⟨q, hq⟩
      apply h
      have hqb : cin'.batch q = b' := (nbrs_batch hq).trans (t.e i).2
      have e1 : q = (s.e (s.e.symm ⟨q, hqb⟩)).1 := by rw [Equiv.apply_symm_apply]
      rw [e1] at hq
      exact ⟨_, (nbrs_elem s t radius i _).1 hq⟩
    rw [dif_neg h, dif_neg h']

/-! ## Convolutions -/

section
variable {cin cin' cout cout' : Cloud (Fin (k + 2) → K)} {b b' : ℕ}

theorem mcSpec_elem (s : SameElem cin cin' b b') (t : SameElem cout cout' b b') (ker act : K → K) (L : MCLayer K)
    (radius bw : K) (f : Fin cin.n → ℕ → K) (f' : Fin cin'.n → ℕ → K) (hf : s.Agree f f') :
    t.Agree (mcSpec ker act L cin cout radius bw f) (mcSpec ker act L cin' cout' radius bw f') := by
  intro i
  funext o
  unfold mcSpec
  apply sum_nbrs_elem s t
  intro p
  rw [hf p, s.pts, t.pts, density_elem s]

theorem pcSpec_elem (s : SameElem cin cin' b b') (t : SameElem cout cout' b b') (ker act : K → K) (L : PCLayer K)
    (radius bw : K) (f : Fin cin.n → ℕ → K) (f' : Fin cin'.n → ℕ → K) (hf : s.Agree f f') :
    t.Agree (pcSpec ker act L cin cout radius bw f) (pcSpec ker act L cin' cout' radius bw f') := by
  intro i
  funext o
  unfold pcSpec
  apply sum_nbrs_elem s t
  intro p
  rw [hf p, s.pts, t.pts, density_elem s,
    maxOver_elem s t radius i _ _ (fun p => density_elem s ker (fun _ => bw) (fun _ => radius) p)]

/-- **C94, MCConv**: the rows of the output cloud that belong to one batch element
are the same in two calls in which the points and features of this element are
the same, whatever the other elements, the batch sizes and the order of the points. -/
theorem C94_mcconv (s : SameElem cin cin' b b') (t : SameElem cout cout' b b') (ker act : K → K) (dev dev' : Device)
    (eps eps' : K) (L : MCLayer K) (radius bw : K) (hok : LayerOk cin cout radius eps)
    (hok' : LayerOk cin' cout' radius eps') (f : Fin cin.n → ℕ → K) (f' : Fin cin'.n → ℕ → K) (hf : s.Agree f f')
    (out : Fin cout.n → ℕ → K) (out' : Fin cout'.n → ℕ → K)
    (h : L.call ker act dev eps cin cout radius bw f = .ok out)
    (h' : L.call ker act dev' eps' cin' cout' radius bw f' = .ok out') : t.Agree out out' := by
  intro i
  funext o
  rw [C41_mcconv_formula ker act dev eps L cin cout radius bw hok f out h i o,
    C41_mcconv_formula ker act dev' eps' L cin' cout' radius bw hok' f' out' h' _ o]
  exact congrFun (mcSpec_elem s t ker act L radius bw f f' hf i) o

/-- **C94, PointConv.** -/
theorem C94_pointconv (s : SameElem cin cin' b b') (t : SameElem cout cout' b b') (ker act : K → K)
    (dev dev' : Device)
    (eps eps' : K) (L : PCLayer K) (radius bw : K) (hok : LayerOk cin cout radius eps)
    (hok' : LayerOk cin' cout' radius eps') (f : Fin cin.n → ℕ → K) (f' : Fin cin'.n → ℕ → K) (hf : s.Agree f f')
    (out : Fin cout.n → ℕ → K) (out' : Fin cout'.n → ℕ → K)
    (h : L.call ker act dev eps cin cout radius bw f = .ok out)
    (h' : L.call ker act dev' eps' cin' cout' radius bw f' = .ok out') : t.Agree out out' := by
  intro i
  funext o
  rw [C41_pointconv_formula ker act dev eps L cin cout radius bw hok f out h i o,
    C41_pointconv_formula ker act dev' eps' L cin' cout' radius bw hok' f' out' h' _ o]
  exact congrFun (pcSpec_elem s t ker act L radius bw f f' hf i) o

end

theorem kpSpec_elem {D : ℕ} {cin cin' cout cout' : Cloud (Fin D → ℝ)} {b b' : ℕ}
    (s : SameElem cin cin' b b') (t : SameElem cout cout' b b') (L : KPLayer D) (sigma radius : ℝ)
    (f : Fin cin.n → ℕ → ℝ) (f' : Fin cin'.n → ℕ → ℝ) (hf : s.Agree f f') :
    t.Agree (kpSpec L sigma cin cout radius f) (kpSpec L sigma cin' cout' radius f') := by
  intro i
  funext o
  unfold kpSpec
  apply sum_nbrs_elem s t
  intro p
  have hoff : ∀ wo b d, kpOffset L wo sigma cin' cout' radius f' (t.e i) b d =
      kpOffset L wo sigma cin cout radius f i b d := by
    intro wo b d
    unfold kpOffset
    apply sum_nbrs_elem s t
    intro p
    rw [hf p, s.pts, t.pts]
  rw [hf p, s.pts, t.pts]
  simp only [hoff]

/-- **C94, KPConv** (rigid and deformable). -/
theorem C94_kpconv {cin cin' cout cout' : Cloud (Fin (k + 2) → ℝ)} {b b' : ℕ}
    (s : SameElem cin cin' b b') (t : SameElem cout cout' b b') (dev dev' : Device) (eps eps' : ℝ)
    (L : KPLayer (k + 2)) (radius : ℝ) (hok : LayerOk cin cout radius eps) (hok' : LayerOk cin' cout' radius eps')
    (influence : Option ℝ) (hcin : 0 < L.cin) (hnk : 0 < L.nk) (hkp : L.nkp = L.nk)
    (f : Fin cin.n → ℕ → ℝ) (f' : Fin cin'.n → ℕ → ℝ) (hf : s.Agree f f') (n n' : ℕ) (out out' : ℕ → ℕ → ℝ)
    (h : L.call dev eps cin cout radius influence f = .ok (n, out))
    (h' : L.call dev' eps' cin' cout' radius influence f' = .ok (n', out')) (i : {i : Fin cout.n // cout.batch i = b})
    (o : ℕ) : out' (t.e i).1.val o = out i.1.val o := by
  have key : ∀ (dev : Device) (eps : ℝ) (cin cout : Cloud (Fin (k + 2) → ℝ)) (hok : LayerOk cin cout radius eps)
      (f : Fin cin.n → ℕ → ℝ) (n : ℕ) (out : ℕ → ℕ → ℝ), L.call dev eps cin cout radius influence f = .ok (n, out) →
      ∀ (i : Fin cout.n) (o : ℕ), out i.val o = kpSpec L (kpSigma influence radius) cin cout radius f i o := by
    intro dev eps cin cout hok f n out h i o
    cases hl : layerNbh dev eps cin cout radius with
    | error e =>
      unfold KPLayer.call at h
      rw [hl] at h
      cases h
    | ok nh =>
      obtain ⟨out2, h2, h3⟩ := C41_kpconv_formula dev eps L cin cout radius hok influence hcin hnk hkp f nh hl
      rw [h] at h2
      cases h2
      exact h3 i o
  rw [key dev eps cin cout hok f n out h, key dev' eps' cin' cout' hok' f' n' out' h']
  exact congrFun (kpSpec_elem s t L _ radius f f' hf i) o

/-! ## Pooling -/

theorem PoolSpec.elem (s : SameElem c c' b b') (op : PoolOp) (P : Fin c.n → Prop)
    [DecidablePred P] (P' : Fin c'.n → Prop) [DecidablePred P'] (g : Fin c.n → K) (g' : Fin c'.n → K)
    (hP : ∀ p, P p → c.batch p = b) (hP' : ∀ p, P' p → c'.batch p = b') (hiff : ∀ p, P' (s.e p) ↔ P p)
    (hg : ∀ p, g' (s.e p) = g p) {x x' : Option K} (h : PoolSpec op (Finset.univ.filter P) g x)
    (h' : PoolSpec op (Finset.univ.filter P') g' x') : x' = x := by
  cases op with
  | mean =>
    have h : x = some (meanOf _ _) := h
    have h' : x' = some (meanOf _ _) := h'
    rw [h, h']
    have h1 := s.sum_filter P P' g g' hP hP' hiff (fun p _ => hg p)
    have h2 := s.sum_filter P P' (fun _ => (1 : ℕ)) (fun _ => 1) hP hP' hiff (fun p _ => rfl)
    simp only [Finset.sum_const, smul_eq_mul, mul_one] at h2
    unfold meanOf
    rw [h1, h2]
  | max =>
    have h' : IsMaxOf (Finset.univ.filter P') g' x' := h'
    refine h'.unique ?_
    have key : ∀ q ∈ Finset.univ.filter P', ∃ p, P p ∧ g p = g' q := by
      intro q hq
      have hq := (Finset.mem_filter.1 hq).2
      have e1 : q = (s.e (s.e.symm ⟨q, hP' q hq⟩)).1 := by rw [Equiv.apply_symm_apply]
      refine ⟨(s.e.symm ⟨q, hP' q hq⟩).1, ?_, ?_⟩
      · rw [← hiff, ← e1]; exact hq
      · rw [← hg, ← e1]
    cases x with
    | none =>
      have h : Finset.univ.filter P = ∅ := h
      show _ = ∅
      rw [Finset.eq_empty_iff_forall_notMem]
      intro q hq
      obtain ⟨p, hp, _⟩ := key q hq
      have : p ∈ Finset.univ.filter P := by simpa using hp
      rw [h] at this
      simp at this
    | some v =>
      obtain ⟨⟨p, hp, hv⟩, hub⟩ := (h : (∃ p ∈ Finset.univ.filter P, g p = v) ∧ ∀ p ∈ Finset.univ.filter P, g p ≤ v)
      have hp := (Finset.mem_filter.1 hp).2
      refine ⟨⟨(s.e ⟨p, hP p hp⟩).1, ?_, ?_⟩, ?_⟩
      · simpa using (hiff ⟨p, hP p hp⟩).2 hp
      · rw [hg]; exact hv
      · intro q hq
        obtain ⟨p, hp, e⟩ := key q hq
        rw [← e]
        exact hub p (by simpa using hp)

/-- **C94, local pooling** (maximum and mean). -/
theorem C94_local_pooling {cin cin' cout cout' : Cloud (Fin (k + 2) → K)} {b b' : ℕ} (s : SameElem cin cin' b b')
    (t : SameElem cout cout' b b') (op : PoolOp) (dev dev' : Device) (eps eps' : K) (radius : RadiusArg K)
    (radii : Fin (k + 2) → K) (hr : poolRadius (k + 2) radius = .ok radii) (hok : PoolOk cin radii eps)
    (hok' : PoolOk cin' radii eps') (f : Fin cin.n → ℕ → K) (f' : Fin cin'.n → ℕ → K) (hf : s.Agree f f')
    (out : Fin cout.n → ℕ → Option K) (out' : Fin cout'.n → ℕ → Option K)
    (h : localPool op dev eps cin cout radius f = .ok out)
    (h' : localPool op dev' eps' cin' cout' radius f' = .ok out') : t.Agree out out' := by
  intro i
  funext ch
  have a := localPool_spec op dev eps cin cout radius radii hr hok f out h i ch
  have a' := localPool_spec op dev' eps' cin' cout' radius radii hr hok' f' out' h' (t.e i) ch
  unfold nbrs at a a'
  refine PoolSpec.elem s op _ _ _ _ ?_ ?_ ?_ ?_ a a'
  · rintro q ⟨hq, _⟩
    rw [hq, i.2]
  · rintro q ⟨hq, _⟩
    rw [hq, (t.e i).2]
  · intro q
    have := nbrs_elem s t (radii 0) i q
    unfold nbrs at this
    simpa only [Finset.mem_filter, Finset.mem_univ, true_and] using this
  · intro p
    rw [hf p]

/-- **C94, global pooling** (maximum and mean): row `b` is determined by the
points of element `b`. -/
theorem C94_global_pooling (s : SameElem c c' b b') (op : PoolOp) (hb : b < c.B) (hb' : b' < c'.B)
    (f : Fin c.n → ℕ → K) (f' : Fin c'.n → ℕ → K) (hf : s.Agree f f') (ch : ℕ) :
    globalPool op c' f' ⟨b', hb'⟩ ch = globalPool op c f ⟨b, hb⟩ ch := by
  refine PoolSpec.elem s op _ _ _ _ ?_ ?_ ?_ ?_ (globalPool_spec op c f ⟨b, hb⟩ ch)
    (globalPool_spec op c' f' ⟨b', hb'⟩ ch)
  · exact fun q hq => hq
  · exact fun q hq => hq
  · intro q
    simp [q.2, (s.e q).2]
  · intro p
    rw [hf p]

/-- **C94, 1x1 convolution.** -/
theorem C94_conv1x1 (s : SameElem c c' b b') (cin : ℕ) (w : ℕ → ℕ → K) (bias : ℕ → K) (f : Fin c.n → ℕ → K)
    (f' : Fin c'.n → ℕ → K) (hf : s.Agree f f') : s.Agree (conv1x1 cin w bias f) (conv1x1 cin w bias f') := by
  intro p
  funext o
  unfold conv1x1
  rw [hf p]

/-! ## Sampling -/

theorem aabbMin_elem (s : SameElem c c' b b') (eps : K) (d : Fin D) : aabbMin eps c' b' d = aabbMin eps c b d := by
  unfold aabbMin
  congr 1
  cases h : segMin (fun i => c.pts i d) c.batch b with
  | none =>
    rw [segMin_eq_none] at h ⊢
    intro i hi
    exact h _ (s.e.symm ⟨i, hi⟩).2
  | some v =>
    rw [segMin_eq_some] at h ⊢
    obtain ⟨⟨i, hi, hv⟩, h2⟩ := h
    refine ⟨⟨(s.e ⟨i, hi⟩).1, (s.e ⟨i, hi⟩).2, by rw [s.pts]; exact hv⟩, ?_⟩
    intro j hj
    have := h2 _ (s.e.symm ⟨j, hj⟩).2
    rw [← s.pts, Equiv.apply_symm_apply] at this
    exact this

/-- Two clouds of cell averages have the same samples for the common element. -/
theorem cellAverage_elem {g g' : Grid D K} (s : SameElem g.c g'.c b b') (hcs : g'.cs = g.cs) (heps : g'.eps = g.eps)
    {out out' : Cloud (Fin D → K)} {f : Fin g.c.n → Fin out.n} {f' : Fin g'.c.n → Fin out'.n}
    (hf : IsCellAverage g out f) (hf' : IsCellAverage g' out' f') :
    ∃ t : SameElem out out' b b', ∀ p : {p // g.c.batch p = b},
      (t.e ⟨f p, (hf.batch p).trans p.2⟩).1 = f' (s.e p) := by
  have hcell : ∀ p q : {p // g.c.batch p = b}, f' (s.e p) = f' (s.e q) ↔ f p = f q := by
    intro p q
    rw [hf.cells, hf'.cells, (s.e p).2, (s.e q).2, p.2, q.2, s.pts, s.pts, hcs, heps]
    unfold SameCell
    simp only [aabbMin_elem s]
  have hrep : ∀ u : {u // out.batch u = b}, ∃ p : {p // g.c.batch p = b}, f p = u := by
    intro u
    obtain ⟨p, hp⟩ := hf.surj u
    exact ⟨⟨p, by rw [← hf.batch, hp, u.2]⟩, hp⟩
  have hrep' : ∀ u : {u // out'.batch u = b'}, ∃ p : {p // g.c.batch p = b}, f' (s.e p) = u := by
    intro u
    obtain ⟨p, hp⟩ := hf'.surj u
    have hpb : g'.c.batch p = b' := by rw [← hf'.batch, hp, u.2]
    exact ⟨s.e.symm ⟨p, hpb⟩, by rw [Equiv.apply_symm_apply]; exact hp⟩
  choose r hr using hrep
  let φ : {u // out.batch u = b} → {u // out'.batch u = b'} :=
    fun u => ⟨f' (s.e (r u)), by rw [hf'.batch, (s.e _).2]⟩
  have hφ : ∀ p : {p // g.c.batch p = b}, (φ ⟨f p, (hf.batch p).trans p.2⟩).1 = f' (s.e p) := by
    intro p
    exact (hcell _ _).2 (hr ⟨f p, _⟩)
  have hbij : Function.Bijective φ := by
    constructor
    · intro u v huv
      have := (hcell _ _).1 (congrArg Subtype.val huv)
      rw [hr, hr] at this
      exact Subtype.ext this
    · intro u
      obtain ⟨p, hp⟩ := hrep' u
      exact ⟨⟨f p, (hf.batch p).trans p.2⟩, Subtype.ext ((hφ p).trans hp)⟩
  refine ⟨⟨Equiv.ofBijective φ hbij, ?_⟩, hφ⟩
  intro u
  obtain ⟨p, hp⟩ : ∃ p : {p // g.c.batch p = b}, f p = u := ⟨r u, hr u⟩
  have hu : u = ⟨f p, (hf.batch p).trans p.2⟩ := Subtype.ext hp.symm
  subst hu
  funext d
  rw [Equiv.ofBijective_apply, hφ p, hf.mean, hf'.mean]
  have hP : ∀ q, f q = f p → g.c.batch q = b := by
    intro q hq
    rw [← hf.batch, hq, hf.batch, p.2]
  have hP' : ∀ q, f' q = f' (s.e p) → g'.c.batch q = b' := by
    intro q hq
    rw [← hf'.batch, hq, hf'.batch, (s.e p).2]
  have h1 := s.sum_filter (fun q => f q = f p) (fun q => f' q = f' (s.e p)) (fun q => g.c.pts q d)
    (fun q => g'.c.pts q d) hP hP' (fun q => hcell q p) (fun q _ => by rw [s.pts])
  have h2 := s.sum_filter (fun q => f q = f p) (fun q => f' q = f' (s.e p)) (fun q => (1 : ℕ))
    (fun q => 1) hP hP' (fun q => hcell q p) (fun q _ => rfl)
  simp only [Finset.sum_const, smul_eq_mul, mul_one] at h2
  rw [h1, h2]

/-- **C94, cell average sampling**: the samples of an element are those of its own
points. -/
theorem C94_cell_average {g g' : Grid D K} (s : SameElem g.c g'.c b b') (hcs : g'.cs = g.cs) (heps : g'.eps = g.eps)
    (hv : g.c.Valid) (hv' : g'.c.Valid) (hpos : ∀ d, 0 < g.cs d) (he : 0 < g.eps) (B B' : ℕ) :
    Nonempty (SameElem (cellAverage g B) (cellAverage g' B') b b') := by
  obtain ⟨f, hf⟩ := C29_cell_average g B hv hpos he
  obtain ⟨f', hf'⟩ := C29_cell_average g' B' hv' (by rw [hcs]; exact hpos) (by rw [heps]; exact he)
  obtain ⟨t, _⟩ := cellAverage_elem s hcs heps hf hf'
  exact ⟨t⟩

theorem levelStep_elem {dev dev' : Device} {eps : K} (heps : 0 < eps) {lower : String → String}
    {mode : String} {bs bs' : Option (List ℕ)} {o o' p p' : CloudObj (Fin (k + 2) → K)} {a : Arg K}
    {cs cs' : Fin (k + 2) → K} {h h' : Nbh k K} (hv : o.c.Valid) (hv' : o'.c.Valid)
    (hm : lower mode ∈ ["average", "cell average", "cell_average"]) {b b' : ℕ} (s : SameElem o.c o'.c b b')
    (hst : LevelStep dev eps lower mode bs o a (.ok (p, cs, h)))
    (hst' : LevelStep dev' eps lower mode bs' o' a (.ok (p', cs', h')))
    (hpos : ∀ d, 0 < cs d) : cs' = cs ∧ Nonempty (SameElem p.c p'.c b b') := by
  cases hst with
  | ok l h c hl hnew hs hb =>
    cases hst' with
    | ok l' h' c' hl' hnew' hs' hb' =>
      rw [hl] at hl'
      cases hl'
      refine ⟨rfl, ?_⟩
      rw [setBatchShape_c, setBatchShape_c]
      simp only [CloudObj.ofCloud]
      have hc := ((C28_sample_modes_partial h lower mode).2.1 hm _).mp hs
      have hc' := ((C28_sample_modes_partial h' lower mode).2.1 hm _).mp hs'
      simp only [Except.ok.injEq] at hc hc'
      subst hc hc'
      obtain ⟨e1, _, e3, _⟩ := new_pairs hnew
      obtain ⟨e1', _, e3', _⟩ := new_pairs hnew'
      rw [e1, e1']
      exact C94_cell_average (g := ⟨o.c, vecOf l, eps⟩) (g' := ⟨o'.c, vecOf l, eps⟩) s rfl rfl hv hv' hpos heps _ _

/-- **C94, hierarchies of cell averages**: on every level, the points of an element
are determined by the points of this element of the input cloud. -/
theorem C94_hierarchy {dev dev' : Device} {eps : K} (heps : 0 < eps) {lower : String → String}
    {mode : String} (hm : lower mode ∈ ["average", "cell average", "cell_average"])
    {o o' : CloudObj (Fin (k + 2) → K)} (hv : o.c.Valid) (hv' : o'.c.Valid) {b b' : ℕ} (s : SameElem o.c o'.c b b')
    (sizes : List (Arg K)) (H H' : Hier k K) (hH : HierNew dev eps lower mode o sizes (.ok H))
    (hH' : HierNew dev' eps lower mode o' sizes (.ok H'))
    (hpos : ∀ cs ∈ H.cellSizes, ∀ d, 0 < cs d) :
    H'.cellSizes = H.cellSizes ∧
    List.Forall₂ (fun o o' : CloudObj (Fin (k + 2) → K) => Nonempty (SameElem o.c o'.c b b')) H.clouds H'.clouds := by
  rcases hH with ⟨ls, hls, he⟩ | ⟨e, _, he⟩
  swap
  · simp at he
  rcases hH' with ⟨ls', hls', he'⟩ | ⟨e, _, he'⟩
  swap
  · simp at he'
  simp only [Except.ok.injEq] at he he'
  subst he he'
  simp only at hpos ⊢
  generalize o.batchShape = bs at hls
  generalize o'.batchShape = bs' at hls'
  rw [List.forall₂_cons]
  suffices hmain : ls'.map (·.2.1) = ls.map (·.2.1) ∧ List.Forall₂
      (fun o o' : CloudObj (Fin (k + 2) → K) => Nonempty (SameElem o.c o'.c b b')) (ls.map (·.1)) (ls'.map (·.1)) from
    ⟨hmain.1, ⟨s⟩, hmain.2⟩
  generalize hr : (Except.ok ls : Except Err _) = r at hls
  induction hls generalizing ls ls' o' with
  | nil o =>
    simp only [Except.ok.injEq] at hr
    subst hr
    cases hls'
    simp
  | fail o a as e _ => simp at hr
  | failLater o a as o' cs h e _ _ => simp at hr
  | cons o a as p cs h rest hst _ ih =>
    simp only [Except.ok.injEq] at hr
    subst hr
    cases hls' with
    | cons _ _ _ p' cs' h' rest' hst' hrest' =>
      obtain ⟨e1, ⟨t⟩⟩ := levelStep_elem heps hv hv' hm s hst hst' (hpos cs (by simp))
      have v1 := (levelStep_spec heps hv hst (hpos cs (by simp))).1.valid
      have v2 := (levelStep_spec heps hv' hst' (by rw [e1]; exact hpos cs (by simp))).1.valid
      obtain ⟨i1, i2⟩ := ih v1 v2 t rest rest'
        (fun c hc => hpos c (by simp only [List.map_cons, List.mem_cons]; exact Or.inr hc)) hrest' rfl
      simp only [List.map_cons, List.forall₂_cons, List.cons.injEq]
      exact ⟨⟨e1, i1⟩, ⟨t⟩, i2⟩

/-! ## An element alone -/

/-- The points of element `b` alone, as a cloud with one batch element: the input
of a call for this element only. -/
def Cloud.element {α : Type*} (c : Cloud α) (b : ℕ) : Cloud α :=
  let s := Finset.univ.filter (fun i => c.batch i = b)
  ⟨s.card, fun i => c.pts (s.orderIsoOfFin rfl i).1, fun _ => 0, 1⟩

/-- It has the same element, so all theorems above compare a batch with its
elements processed one by one. -/
def Cloud.sameElement (c : Cloud (Fin D → K)) (b : ℕ) : SameElem c (c.element b) b 0 :=
  let o := (Finset.univ.filter (fun i => c.batch i = b)).orderIsoOfFin rfl
  { e :=
      { toFun := fun p => ⟨o.symm ⟨p.1, Finset.mem_filter.2 ⟨Finset.mem_univ _, p.2⟩⟩, rfl⟩
        invFun := fun i => ⟨(o i.1).1, (Finset.mem_filter.1 (o i.1).2).2⟩
        left_inv := fun p => Subtype.ext (congrArg (fun q : {q // q ∈ Finset.univ.filter (fun i => c.batch i = b)} => q.1)
          (o.apply_symm_apply ⟨p.1, Finset.mem_filter.2 ⟨Finset.mem_univ _, p.2⟩⟩))
        right_inv := fun i => Subtype.ext (o.symm_apply_apply i.1) }
    pts := fun p => congrArg (fun q : {q // q ∈ Finset.univ.filter (fun i => c.batch i = b)} => c.pts q.1)
      (o.apply_symm_apply ⟨p.1, Finset.mem_filter.2 ⟨Finset.mem_univ _, p.2⟩⟩) }

theorem Cloud.element_valid {α : Type*} (c : Cloud α) (b : ℕ) : (c.element b).Valid := fun _ => Nat.one_pos

/-- **C94, a batch or one call per element** (MCConv): the output for point `i` of
the batch is the output of a call with the element of `i` alone. -/
theorem C94_one_by_one {cin cout : Cloud (Fin (k + 2) → K)} (ker act : K → K) (dev dev' : Device)
    (eps : K) (L : MCLayer K) (radius bw : K) (hok : LayerOk cin cout radius eps)
    (f : Fin cin.n → ℕ → K) (b : ℕ) (out : Fin cout.n → ℕ → K) (out' : Fin (cout.element b).n → ℕ → K)
    (f' : Fin (cin.element b).n → ℕ → K) (hf : ∀ p, f' ((cin.sameElement b).e p).1 = f p)
    (h : L.call ker act dev eps cin cout radius bw f = .ok out)
    (h' : L.call ker act dev' eps (cin.element b) (cout.element b) radius bw f' = .ok out') (i : Fin cout.n)
    (hi : cout.batch i = b) : out i = out' ((cout.sameElement b).e ⟨i, hi⟩).1 :=
  (C94_mcconv (cin.sameElement b) (cout.sameElement b) ker act dev dev' eps eps L radius bw hok
    ⟨Cloud.element_valid _ _, hok.radius_pos, hok.eps_pos⟩ f f' hf out out' h h' ⟨i, hi⟩).symm
end
end PC
