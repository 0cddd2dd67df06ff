import Verif.Props.BatchElem
import Verif.Props.Stable

/-!
# C136: the output at a centre depends only on points near the centre
-/

set_option linter.unusedVariables false
set_option linter.unusedSectionVars false

namespace PC

section
variable {K : Type*} [Field K] [LinearOrder K] [IsStrictOrderedRing K] [FloorRing K] {k : ℕ}

/-- Triangle inequality without roots. -/
theorem normLt_plus {D : ℕ} {u v : Fin D → K} {r t : K} (hu : normLt u r) (hv : normLt v t) :
    normLt (fun d => u d + v d) (r + t) := by
  obtain ⟨hr, h1⟩ := hu
  obtain ⟨ht, h2⟩ := hv
  refine ⟨add_pos hr ht, ?_⟩
  have h1' : ∑ d, u d ^ 2 < r * r := by simpa only [pow_two] using h1
  have h2' : ∑ d, v d ^ 2 < t * t := by simpa only [pow_two] using h2
  have cs : (∑ d, u d * v d) ^ 2 ≤ (∑ d, u d ^ 2) * ∑ d, v d ^ 2 := Finset.sum_mul_sq_le_sq_mul_sq _ _ _
  have hp : (∑ d, u d ^ 2) * ∑ d, v d ^ 2 ≤ (r * r) * (t * t) :=
    mul_le_mul h1'.le h2'.le (Finset.sum_nonneg fun d _ => sq_nonneg _) (mul_self_nonneg r)
  have hm : ∑ d, u d * v d ≤ r * t := by
    refine abs_le_of_sq_le_sq' ?_ (mul_pos hr ht).le |>.2
    calc (∑ d, u d * v d) ^ 2 ≤ (r * r) * (t * t) := cs.trans hp
      _ = (r * t) ^ 2 := by ring
  calc ∑ d, (u d + v d) * (u d + v d) = ∑ d, u d * u d + 2 * ∑ d, u d * v d + ∑ d, v d * v d := by
        rw [Finset.mul_sum, ← Finset.sum_add_distrib, ← Finset.sum_add_distrib]
        exact Finset.sum_congr rfl fun d _ => by ring
    _ < (r + t) * (r + t) := by nlinarith

theorem normLt_mono {D : ℕ} {u : Fin D → K} {r t : K} (h : r ≤ t) (hu : normLt u r) : normLt u t :=
  ⟨hu.1.trans_le h, hu.2.trans_le (mul_self_le_mul_self hu.1.le h)⟩

/-- Distances add up. -/
theorem normLt_trans {D : ℕ} {x y z : Fin D → K} {r t : K} (h1 : normLt (fun d => x d - y d) r)
    (h2 : normLt (fun d => y d - z d) t) : normLt (fun d => x d - z d) (r + t) := by
  have h := normLt_plus h1 h2
  simpa only [sub_add_sub_cancel] using h

/-- Specification: element `b` of `c` and element `b'` of `c'` have the same points at distance
less than `ρ` from `y`, at any places of the two clouds. -/
structure SameNear {D : ℕ} (c c' : Cloud (Fin D → K)) (b b' : ℕ) (y : Fin D → K) (ρ : K) where
  e : {p : Fin c.n // c.batch p = b ∧ normLt (fun d => c.pts p d - y d) ρ} ≃
    {p : Fin c'.n // c'.batch p = b' ∧ normLt (fun d => c'.pts p d - y d) ρ}
  pts : ∀ p, c'.pts (e p) = c.pts p

namespace SameNear
variable {D : ℕ} {c c' : Cloud (Fin D → K)} {b b' : ℕ} {y : Fin D → K} {ρ : K}

/-- The features of the common points agree. -/
def Agree {β : Type*} (s : SameNear c c' b b' y ρ) (f : Fin c.n → β) (f' : Fin c'.n → β) : Prop :=
  ∀ p, f' (s.e p) = f p

theorem sum_filter (s : SameNear c c' b b' y ρ) {M : Type*} [AddCommMonoid M] (P : Fin c.n → Prop)
    [DecidablePred P] (P' : Fin c'.n → Prop) [DecidablePred P'] (g : Fin c.n → M) (g' : Fin c'.n → M)
    (hP : ∀ p, P p → c.batch p = b ∧ normLt (fun d => c.pts p d - y d) ρ)
    (hP' : ∀ p, P' p → c'.batch p = b' ∧ normLt (fun d => c'.pts p d - y d) ρ) (hiff : ∀ p, P' (s.e p) ↔ P p)
    (hg : ∀ p, P p.1 → g' (s.e p) = g p) :
    ∑ p ∈ Finset.univ.filter P', g' p = ∑ p ∈ Finset.univ.filter P, g p := by
  symm
  refine Finset.sum_bij' (fun p hp => (s.e ⟨p, hP p (Finset.mem_filter.1 hp).2⟩).1)
    (fun p hp => (s.e.symm ⟨p, hP' p (Finset.mem_filter.1 hp).2⟩).1) ?_ ?_ ?_ ?_ ?_
  · intro p hp
    rw [Finset.mem_filter]
    exact ⟨Finset.mem_univ _, (hiff _).2 (Finset.mem_filter.1 hp).2⟩
  · intro p hp
    rw [Finset.mem_filter]
    refine ⟨Finset.mem_univ _, (hiff _).1 ?_⟩
    rw [Equiv.apply_symm_apply]
    exact (Finset.mem_filter.1 hp).2
  · intro p hp
    simp
  · intro p hp
    simp
  · intro p hp
    exact (hg ⟨p, _⟩ (Finset.mem_filter.1 hp).2).symm

/-- Densities of points whose neighbours are common. -/
theorem density_eq {D : ℕ} {c c' : Cloud (Fin (D + 1) → K)} {y : Fin (D + 1) → K} (s : SameNear c c' b b' y ρ)
    (ker : K → K) (bw radii : Fin (D + 1) → K) (r : K) (hr : r + radii 0 ≤ ρ)
    (p : {p : Fin c.n // c.batch p = b ∧ normLt (fun d => c.pts p d - y d) ρ})
    (hp : normLt (fun d => c.pts p d - y d) r) :
    density ker c' bw radii (s.e p) = density ker c bw radii p := by
  unfold density
  congr 1
  apply s.sum_filter
  · rintro q ⟨hq, hn⟩
    exact ⟨hq.trans p.2.1, normLt_mono ((add_comm _ _).trans_le hr) (normLt_trans hn hp)⟩
  · rintro q ⟨hq, hn⟩
    rw [s.pts] at hn
    exact ⟨hq.trans (s.e p).2.1, normLt_mono ((add_comm _ _).trans_le hr) (normLt_trans hn hp)⟩
  · intro q
    rw [s.pts, s.pts, (s.e q).2.1, (s.e p).2.1, q.2.1, p.2.1]
    simp
  · intro q _
    rw [s.pts, s.pts]

variable {cin cin' cout cout' : Cloud (Fin D → K)}

theorem mem_nbrs (s : SameNear cin cin' b b' y ρ) {i : Fin cout.n} {i' : Fin cout'.n} (hb : cout.batch i = b)
    (hb' : cout'.batch i' = b') (hy : cout.pts i = y) (hy' : cout'.pts i' = y) (radius : K)
    (p : {p : Fin cin.n // cin.batch p = b ∧ normLt (fun d => cin.pts p d - y d) ρ}) :
    (s.e p).1 ∈ nbrs cin' cout' radius i' ↔ p.1 ∈ nbrs cin cout radius i := by
  unfold nbrs
  simp only [Finset.mem_filter, Finset.mem_univ, true_and]
  rw [s.pts, hy, hy', (s.e p).2.1, p.2.1, hb, hb']
  simp

theorem near (hρ : radius ≤ ρ) {i : Fin cout.n} (hb : cout.batch i = b) (hy : cout.pts i = y) {p : Fin cin.n}
    (h : p ∈ nbrs cin cout radius i) : cin.batch p = b ∧ normLt (fun d => cin.pts p d - y d) ρ := by
  obtain ⟨h1, h2⟩ := (Finset.mem_filter.1 h).2
  rw [hy] at h2
  exact ⟨h1.trans hb, normLt_mono hρ h2⟩

theorem sum_nbrs (s : SameNear cin cin' b b' y ρ) {i : Fin cout.n} {i' : Fin cout'.n} (hb : cout.batch i = b)
    (hb' : cout'.batch i' = b') (hy : cout.pts i = y) (hy' : cout'.pts i' = y) (radius : K) (hρ : radius ≤ ρ) {M : Type*}
    [AddCommMonoid M] (g : Fin cin.n → M) (g' : Fin cin'.n → M)
    (hg : ∀ p, normLt (fun d => cin.pts p.1 d - y d) radius → g' (s.e p) = g p) :
    ∑ p ∈ nbrs cin' cout' radius i', g' p = ∑ p ∈ nbrs cin cout radius i, g p := by
  have hm := s.mem_nbrs hb hb' hy hy' radius
  unfold nbrs at hm ⊢
  simp only [Finset.mem_filter, Finset.mem_univ, true_and] at hm
  refine s.sum_filter _ _ g g' ?_ ?_ hm ?_
  · exact fun p hp => near hρ hb hy (p := p) (by simpa [nbrs] using hp)
  · exact fun p hp => near hρ hb' hy' (p := p) (by simpa [nbrs] using hp)
  · rintro p ⟨_, hp⟩
    rw [hy] at hp
    exact hg p hp

/-- Every value on one side occurs on the other. -/
theorem values (s : SameNear cin cin' b b' y ρ) {i : Fin cout.n} {i' : Fin cout'.n} (hb : cout.batch i = b)
    (hb' : cout'.batch i' = b') (hy : cout.pts i = y) (hy' : cout'.pts i' = y) (radius : K) (hρ : radius ≤ ρ)
    (g : Fin cin.n → K) (g' : Fin cin'.n → K)
    (hg : ∀ p, normLt (fun d => cin.pts p.1 d - y d) radius → g' (s.e p) = g p) :
    (∀ p ∈ nbrs cin cout radius i, ∃ q ∈ nbrs cin' cout' radius i', g' q = g p) ∧
      ∀ q ∈ nbrs cin' cout' radius i', ∃ p ∈ nbrs cin cout radius i, g' q = g p := by
  have hm := s.mem_nbrs hb hb' hy hy' radius
  refine ⟨fun p hp => ?_, fun q hq => ?_⟩
  · have h1 := near hρ hb hy hp
    refine ⟨_, (hm ⟨p, h1⟩).2 hp, hg ⟨p, h1⟩ ?_⟩
    have := (Finset.mem_filter.1 hp).2.2
    rwa [hy] at this
  · have h1 := near hρ hb' hy' hq
    have e1 : q = (s.e (s.e.symm ⟨q, h1⟩)).1 := by rw [Equiv.apply_symm_apply]
    have h2 : (s.e.symm ⟨q, h1⟩).1 ∈ nbrs cin cout radius i := by
      rw [← hm, ← e1]
      exact hq
    refine ⟨_, h2, ?_⟩
    have := (Finset.mem_filter.1 h2).2.2
    rw [hy] at this
    rw [← hg _ this, ← e1]

theorem maxOver_eq (s : SameNear cin cin' b b' y ρ) {i : Fin cout.n} {i' : Fin cout'.n} (hb : cout.batch i = b)
    (hb' : cout'.batch i' = b') (hy : cout.pts i = y) (hy' : cout'.pts i' = y) (radius : K) (hρ : radius ≤ ρ)
    (g : Fin cin.n → K) (g' : Fin cin'.n → K)
    (hg : ∀ p, normLt (fun d => cin.pts p.1 d - y d) radius → g' (s.e p) = g p) :
    maxOver (nbrs cin' cout' radius i') g' = maxOver (nbrs cin cout radius i) g := by
  obtain ⟨h1, h2⟩ := s.values hb hb' hy hy' radius hρ g g' hg
  unfold maxOver
  by_cases h : (nbrs cin cout radius i).Nonempty
  · have h' : (nbrs cin' cout' radius i').Nonempty := by
      obtain ⟨p, hp⟩ := h
      obtain ⟨q, hq, _⟩ := h1 p hp
      exact ⟨q, hq⟩
    rw [dif_pos h, dif_pos h']
    apply le_antisymm
    · refine Finset.sup'_le _ _ fun q hq => ?_
      obtain ⟨p, hp, e⟩ := h2 q hq
      rw [e]
      exact Finset.le_sup' g hp
    · refine Finset.sup'_le _ _ fun p hp => ?_
      obtain ⟨q, hq, e⟩ := h1 p hp
      rw [← e]
      exact Finset.le_sup' g' hq
  · have h' : ¬ (nbrs cin' cout' radius i').Nonempty := by
      rintro ⟨q, hq⟩
      obtain ⟨p, hp, _⟩ := h2 q hq
      exact h ⟨p, hp⟩
    rw [dif_neg h, dif_neg h']

end SameNear

/-! ## one layer -/

section
variable {cin cin' cout cout' : Cloud (Fin (k + 2) → K)} {b b' : ℕ} {y : Fin (k + 2) → K} {ρ : K}

/-- **C136, MCConv**: the output at a centre is determined by the points within two radii (within one
radius: their features; within two: their positions, because of the densities). -/
theorem C136_mcconv (s : SameNear cin cin' b b' y ρ) {i : Fin cout.n} {i' : Fin cout'.n} (hb : cout.batch i = b)
    (hb' : cout'.batch i' = b') (hy : cout.pts i = y) (hy' : cout'.pts i' = y) (ker act : K → K) (dev dev' : Device)
    (eps eps' : K) (L : MCLayer K) (radius bw : K) (hρ : radius + radius ≤ ρ) (hok : LayerOk cin cout radius eps)
    (hok' : LayerOk cin' cout' radius eps') (f : Fin cin.n → ℕ → K) (f' : Fin cin'.n → ℕ → K)
    (hf : ∀ p, normLt (fun d => cin.pts p.1 d - y d) radius → f' (s.e p) = f p)
    (out : Fin cout.n → ℕ → K) (out' : Fin cout'.n → ℕ → K)
    (h : L.call ker act dev eps cin cout radius bw f = .ok out)
    (h' : L.call ker act dev' eps' cin' cout' radius bw f' = .ok out') : out' i' = out i := by
  funext o
  rw [C41_mcconv_formula ker act dev eps L cin cout radius bw hok f out h i o,
    C41_mcconv_formula ker act dev' eps' L cin' cout' radius bw hok' f' out' h' i' o]
  unfold mcSpec
  refine s.sum_nbrs hb hb' hy hy' radius ((le_add_of_nonneg_left hok.radius_pos.le).trans hρ) _ _ fun p hp => ?_
  rw [hf p hp, s.pts, hy, hy', s.density_eq ker (fun _ => bw) (fun _ => radius) radius hρ p hp]

/-- **C136, PointConv.** -/
theorem C136_pointconv (s : SameNear cin cin' b b' y ρ) {i : Fin cout.n} {i' : Fin cout'.n} (hb : cout.batch i = b)
    (hb' : cout'.batch i' = b') (hy : cout.pts i = y) (hy' : cout'.pts i' = y) (ker act : K → K) (dev dev' : Device)
    (eps eps' : K) (L : PCLayer K) (radius bw : K) (hρ : radius + radius ≤ ρ) (hok : LayerOk cin cout radius eps)
    (hok' : LayerOk cin' cout' radius eps') (f : Fin cin.n → ℕ → K) (f' : Fin cin'.n → ℕ → K)
    (hf : ∀ p, normLt (fun d => cin.pts p.1 d - y d) radius → f' (s.e p) = f p)
    (out : Fin cout.n → ℕ → K) (out' : Fin cout'.n → ℕ → K)
    (h : L.call ker act dev eps cin cout radius bw f = .ok out)
    (h' : L.call ker act dev' eps' cin' cout' radius bw f' = .ok out') : out' i' = out i := by
  funext o
  have hρ1 : radius ≤ ρ := (le_add_of_nonneg_left hok.radius_pos.le).trans hρ
  rw [C41_pointconv_formula ker act dev eps L cin cout radius bw hok f out h i o,
    C41_pointconv_formula ker act dev' eps' L cin' cout' radius bw hok' f' out' h' i' o]
  unfold pcSpec
  rw [s.maxOver_eq hb hb' hy hy' radius hρ1 (density ker cin (fun _ => bw) (fun _ => radius))
    (density ker cin' (fun _ => bw) (fun _ => radius)) fun p hp =>
      s.density_eq ker (fun _ => bw) (fun _ => radius) radius hρ p hp]
  refine s.sum_nbrs hb hb' hy hy' radius hρ1 _ _ fun p hp => ?_
  rw [hf p hp, s.pts, hy, hy', s.density_eq ker (fun _ => bw) (fun _ => radius) radius hρ p hp]

/-- **C136, local pooling**: points within one radius. -/
theorem C136_pool (s : SameNear cin cin' b b' y ρ) {i : Fin cout.n} {i' : Fin cout'.n} (hb : cout.batch i = b)
    (hb' : cout'.batch i' = b') (hy : cout.pts i = y) (hy' : cout'.pts i' = y) (op : PoolOp) (dev dev' : Device)
    (eps eps' : K) (radius : RadiusArg K) (radii : Fin (k + 2) → K) (hr : poolRadius (k + 2) radius = .ok radii)
    (hρ : radii 0 ≤ ρ) (hok : PoolOk cin radii eps) (hok' : PoolOk cin' radii eps') (f : Fin cin.n → ℕ → K)
    (f' : Fin cin'.n → ℕ → K) (hf : ∀ p, normLt (fun d => cin.pts p.1 d - y d) (radii 0) → f' (s.e p) = f p)
    (out : Fin cout.n → ℕ → Option K) (out' : Fin cout'.n → ℕ → Option K)
    (h : localPool op dev eps cin cout radius f = .ok out)
    (h' : localPool op dev' eps' cin' cout' radius f' = .ok out') : out' i' = out i := by
  funext ch
  cases op with
  | max =>
    have a := C43_local_max dev eps cin cout radius radii hr hok f out h i ch
    have a' := C43_local_max dev' eps' cin' cout' radius radii hr hok' f' out' h' i' ch
    obtain ⟨h1, h2⟩ := s.values hb hb' hy hy' (radii 0) hρ (fun p => f p ch) (fun p => f' p ch)
      fun p hp => by rw [hf p hp]
    refine a'.unique ?_
    cases hx : out i ch with
    | none =>
      rw [hx] at a
      have a : nbrs cin cout (radii 0) i = ∅ := a
      show nbrs cin' cout' (radii 0) i' = ∅
      rw [Finset.eq_empty_iff_forall_notMem]
      intro q hq
      obtain ⟨p, hp, _⟩ := h2 q hq
      rw [a] at hp
      simp at hp
    | some v =>
      rw [hx] at a
      obtain ⟨⟨p, hp, e⟩, hub⟩ := a
      obtain ⟨q, hq, e2⟩ := h1 p hp
      refine ⟨⟨q, hq, e2.trans e⟩, fun q hq => ?_⟩
      obtain ⟨p, hp, e2⟩ := h2 q hq
      exact e2.trans_le (hub p hp)
  | mean =>
    rw [C44_local_mean dev eps cin cout radius radii hr hok f out h i ch,
      C44_local_mean dev' eps' cin' cout' radius radii hr hok' f' out' h' i' ch]
    have h1 := s.sum_nbrs hb hb' hy hy' (radii 0) hρ (fun p => f p ch) (fun p => f' p ch)
      fun p hp => by rw [hf p hp]
    have h2 := s.sum_nbrs hb hb' hy hy' (radii 0) hρ (fun _ => (1 : ℕ)) (fun _ => 1) fun p hp => rfl
    simp only [Finset.sum_const, smul_eq_mul, mul_one] at h2
    unfold meanOf
    rw [h1, h2]

/-! ## several layers -/

/-- The points near another centre. -/
def SameNear.sub {D : ℕ} {c c' : Cloud (Fin D → K)} {y : Fin D → K} (s : SameNear c c' b b' y ρ) (z : Fin D → K)
    (t : K) (h : ∀ x : Fin D → K, normLt (fun d => x d - z d) t → normLt (fun d => x d - y d) ρ) :
    SameNear c c' b b' z t where
  e :=
    { toFun := fun p => ⟨(s.e ⟨p.1, p.2.1, h _ p.2.2⟩).1, (s.e _).2.1, by rw [s.pts]; exact p.2.2⟩
      invFun := fun q => ⟨(s.e.symm ⟨q.1, q.2.1, h _ q.2.2⟩).1, (s.e.symm _).2.1, by
        rw [← s.pts, Equiv.apply_symm_apply]; exact q.2.2⟩
      left_inv := fun p => by simp
      right_inv := fun q => by simp }
  pts := fun p => s.pts _

/-- Monte Carlo convolutions on one cloud, each followed by a map of the features of every
single point (normalisation at inference, activation, 1x1 convolution). -/
inductive MCChain (ker act : K → K) (dev : Device) (eps : K) (c : Cloud (Fin (k + 2) → K)) :
    List (MCLayer K × K × K × ((ℕ → K) → ℕ → K)) → (Fin c.n → ℕ → K) → (Fin c.n → ℕ → K) → Prop
  | nil (f) : MCChain ker act dev eps c [] f f
  | cons (L : MCLayer K) (radius bw : K) (φ : (ℕ → K) → ℕ → K) (ls f g out) :
      L.call ker act dev eps c c radius bw f = .ok g → MCChain ker act dev eps c ls (fun i => φ (g i)) out →
      MCChain ker act dev eps c ((L, radius, bw, φ) :: ls) f out

/-- Specification: twice the sum of the radii. -/
def fieldRadius : List (MCLayer K × K × K × ((ℕ → K) → ℕ → K)) → K
  | [] => 0
  | l :: ls => l.2.1 + l.2.1 + fieldRadius ls

/-- **C136, any number of layers**: the output at a point is determined by the points within twice the sum
of the radii. -/
theorem C136_chain {c c' : Cloud (Fin (k + 2) → K)} (ker act : K → K) (dev dev' : Device) (eps eps' : K) (heps : 0 < eps)
    (heps' : 0 < eps') (hv : c.Valid) (hv' : c'.Valid) (ls : List (MCLayer K × K × K × ((ℕ → K) → ℕ → K)))
    (hr : ∀ l ∈ ls, 0 < l.2.1) (s : SameNear c c' b b' y ρ) (hρ : fieldRadius ls ≤ ρ) {i : Fin c.n} {i' : Fin c'.n}
    (hb : c.batch i = b) (hb' : c'.batch i' = b') (hy : c.pts i = y) (hy' : c'.pts i' = y)
    (f out : Fin c.n → ℕ → K) (f' out' : Fin c'.n → ℕ → K) (hf : s.Agree f f') (hfi : f' i' = f i)
    (h : MCChain ker act dev eps c ls f out) (h' : MCChain ker act dev' eps' c' ls f' out') : out' i' = out i := by
  induction ls generalizing f f' ρ with
  | nil =>
    cases h
    cases h'
    exact hfi
  | cons l ls ih =>
    obtain ⟨L, radius, bw, φ⟩ := l
    cases h with
    | cons _ _ _ _ _ _ g _ h1 h2 =>
    cases h' with
    | cons _ _ _ _ _ _ g' _ h1' h2' =>
    have hr0 : 0 < radius := hr _ List.mem_cons_self
    have hρ : radius + radius + fieldRadius ls ≤ ρ := hρ
    have h0 : 0 ≤ fieldRadius ls := by
      have : ∀ l : List (MCLayer K × K × K × ((ℕ → K) → ℕ → K)), (∀ x ∈ l, 0 < x.2.1) → 0 ≤ fieldRadius l := by
        intro l
        induction l with
        | nil => exact fun _ => le_rfl
        | cons a l ih2 =>
          intro h
          have h1 := h a List.mem_cons_self
          have h2 := ih2 fun x hx => h x (List.mem_cons_of_mem _ hx)
          show 0 ≤ a.2.1 + a.2.1 + fieldRadius l
          linarith
      exact this ls fun x hx => hr x (List.mem_cons_of_mem _ hx)
    have one : ∀ (z : Fin (k + 2) → K) (t : SameNear c c' b b' z (radius + radius)) (j : Fin c.n) (j' : Fin c'.n),
        c.batch j = b → c'.batch j' = b' → c.pts j = z → c'.pts j' = z → t.Agree f f' → g' j' = g j :=
      fun z t j j' e1 e2 e3 e4 ha => C136_mcconv t e1 e2 e3 e4 ker act dev dev' eps eps' L radius bw le_rfl
        ⟨hv, hr0, heps⟩ ⟨hv', hr0, heps'⟩ f f' (fun p _ => ha p) g g' h1 h1'
    refine ih (fun x hx => hr x (List.mem_cons_of_mem _ hx)) (s.sub y (fieldRadius ls) fun x hx =>
      normLt_mono (by linarith) hx) le_rfl _ _ (fun p => ?_) ?_ h2 h2'
    · refine congrArg φ (one (c.pts p.1) (s.sub _ _ fun x hx => ?_) _ _ p.2.1 ?_ rfl ?_ fun q => ?_)
      · exact normLt_mono hρ (normLt_trans hx p.2.2)
      · exact (s.e _).2.1
      · exact s.pts _
      · exact hf _
    · refine congrArg φ (one y (s.sub _ _ fun x hx => normLt_mono (by linarith) hx) i i' hb hb' hy hy' fun q => ?_)
      exact hf _

end
end

/-- **C136, KPConv** (rigid and deformable): points within one radius. -/
theorem C136_kpconv {k : ℕ} {cin cin' cout cout' : Cloud (Fin (k + 2) → ℝ)} {b b' : ℕ} {y : Fin (k + 2) → ℝ} {ρ : ℝ}
    (s : SameNear cin cin' b b' y ρ) {i : Fin cout.n} {i' : Fin cout'.n} (hb : cout.batch i = b)
    (hb' : cout'.batch i' = b') (hy : cout.pts i = y) (hy' : cout'.pts i' = y) (dev dev' : Device) (eps eps' : ℝ)
    (L : KPLayer (k + 2)) (radius : ℝ) (hρ : radius ≤ ρ) (hok : LayerOk cin cout radius eps)
    (hok' : LayerOk cin' cout' radius eps') (influence : Option ℝ) (hcin : 0 < L.cin) (hnk : 0 < L.nk)
    (hkp : L.nkp = L.nk) (f : Fin cin.n → ℕ → ℝ) (f' : Fin cin'.n → ℕ → ℝ)
    (hf : ∀ p, normLt (fun d => cin.pts p.1 d - y d) radius → f' (s.e p) = f p) (n n' : ℕ) (out out' : ℕ → ℕ → ℝ)
    (h : L.call dev eps cin cout radius influence f = .ok (n, out))
    (h' : L.call dev' eps' cin' cout' radius influence f' = .ok (n', out')) (o : ℕ) : out' i'.val o = out i.val o := by
  have key : ∀ (dev : Device) (eps : ℝ) (cin cout : Cloud (Fin (k + 2) → ℝ)) (hok : LayerOk cin cout radius eps)
      (f : Fin cin.n → ℕ → ℝ) (n : ℕ) (out : ℕ → ℕ → ℝ), L.call dev eps cin cout radius influence f = .ok (n, out) →
      ∀ (i : Fin cout.n) (o : ℕ), out i.val o = kpSpec L (kpSigma influence radius) cin cout radius f i o := by
    intro dev eps cin cout hok f n out h i o
    cases hl : layerNbh dev eps cin cout radius with
    | error e =>
      unfold KPLayer.call at h
      rw [hl] at h
      cases h
    | ok nh =>
      obtain ⟨out2, h2, h3⟩ := C41_kpconv_formula dev eps L cin cout radius hok influence hcin hnk hkp f nh hl
      rw [h] at h2
      cases h2
      exact h3 i o
  rw [key dev eps cin cout hok f n out h, key dev' eps' cin' cout' hok' f' n' out' h']
  have hoff : ∀ (wo : ℕ → ℕ → ℝ) (x : ℕ) (d : Fin (k + 2)), kpOffset L wo (kpSigma influence radius) cin' cout' radius f' i' x d =
      kpOffset L wo (kpSigma influence radius) cin cout radius f i x d := by
    intro wo x d
    unfold kpOffset
    refine s.sum_nbrs hb hb' hy hy' radius hρ _ _ fun p hp => ?_
    rw [hf p hp, s.pts, hy, hy']
  unfold kpSpec
  refine s.sum_nbrs hb hb' hy hy' radius hρ _ _ fun p hp => ?_
  rw [hf p hp, s.pts, hy, hy']
  simp only [hoff]

/-! ### two radii are needed -/

/-- Points on a line, three quarters of a radius apart. -/
noncomputable abbrev lineCloud (n : ℕ) : Cloud (Fin 2 → ℝ) :=
  ⟨n, fun i d => if d = 0 then (i.val : ℝ) * (3 / 4) else 0, fun _ => 0, 1⟩

/-- A layer that adds up the inverse densities. -/
abbrev invDensityLayer : MCLayer ℝ := ⟨1, 1, 1, [⟨1, fun _ _ _ => 0, fun _ _ => 1⟩], fun _ _ _ => 1⟩

theorem line_dist (n m : ℕ) (p : Fin n) (q : Fin m) :
    normLt (fun d => (lineCloud n).pts p d - (lineCloud m).pts q d) 1 ↔ ((p.val : ℝ) - q.val) ^ 2 < 16 / 9 := by
  unfold normLt
  simp only [Fin.sum_univ_two, lineCloud, if_true, one_pos, true_and, show ¬ ((1 : Fin 2) = 0) by decide, if_false]
  constructor <;> intro h <;> nlinarith

/-- One more point, at distance at least `ρ` from the first. -/
noncomputable def line_near (n : ℕ) (ρ : ℝ) (h : ρ ≤ n * (3 / 4)) :
    SameNear (lineCloud n) (lineCloud (n + 1)) 0 0 ((lineCloud 1).pts (0 : Fin 1)) ρ where
  e :=
    { toFun := fun p => ⟨(Fin.castSucc (n := n) p.1 : Fin (n + 1)), rfl, p.2.2⟩
      invFun := fun q => ⟨(⟨q.1.val, by
        obtain ⟨h0, h1⟩ := q.2.2
        by_contra hq
        have h2 : (n : ℝ) ≤ (q.1.val : ℝ) := by exact_mod_cast (not_lt.1 hq)
        simp only [Fin.sum_univ_two, lineCloud, if_true, show ¬ ((1 : Fin 2) = 0) by decide, if_false, Fin.val_zero,
          Nat.cast_zero, zero_mul, sub_zero, mul_zero, add_zero] at h1
        nlinarith⟩ : Fin n), rfl, q.2.2⟩
      left_inv := fun p => rfl
      right_inv := fun q => rfl }
  pts := fun p => rfl

theorem line_density (n : ℕ) (p : Fin n) : density gauss (lineCloud n) (fun _ => 1) (fun _ => 1) p =
    ∑ q : Fin n, if ((q.val : ℝ) - p.val) ^ 2 < 16 / 9 then gauss (((q.val : ℝ) - p.val) * (3 / 4)) * gauss 0 else 0 := by
  unfold density
  rw [Finset.prod_const_one, div_one, Finset.sum_filter]
  refine Finset.sum_congr rfl fun q _ => ?_
  have hp : ∏ d : Fin 2, gauss (((lineCloud n).pts q d - (lineCloud n).pts p d) / (1 * 1)) =
      gauss (((q.val : ℝ) - p.val) * (3 / 4)) * gauss 0 := by
    rw [Fin.prod_univ_two, sub_mul]
    simp
  simp only [line_dist n n q p, true_and]
  rw [← hp]

/-- **C136 needs two radii**: two clouds that agree, with their features, within one radius of the centre,
on which a Monte Carlo convolution gives different results. -/
theorem C136_two_radii : ∃ (out out' : Fin 1 → ℕ → ℝ),
    invDensityLayer.call (k := 0) gauss id .gpu (1 / 100) (lineCloud 2) (lineCloud 1) 1 1 (fun _ _ => 1) = .ok out ∧
    invDensityLayer.call (k := 0) gauss id .gpu (1 / 100) (lineCloud 3) (lineCloud 1) 1 1 (fun _ _ => 1) = .ok out' ∧
    Nonempty (SameNear (lineCloud 2) (lineCloud 3) 0 0 ((lineCloud 1).pts (0 : Fin 1)) 1) ∧ out' 0 0 ≠ out 0 0 := by
  have hok : ∀ n, LayerOk (lineCloud n) (lineCloud 1) 1 (1 / 100) := fun n =>
    ⟨fun _ => Nat.zero_lt_one, one_pos, by norm_num⟩
  obtain ⟨out, h⟩ := C41_mcconv_returns (k := 0) gauss id (1 / 100) invDensityLayer (lineCloud 2) (lineCloud 1) 1 1 (hok 2)
    (by norm_num) (by norm_num) (fun _ => Nat.zero_lt_one) (fun _ _ => 1)
  obtain ⟨out', h'⟩ := C41_mcconv_returns (k := 0) gauss id (1 / 100) invDensityLayer (lineCloud 3) (lineCloud 1) 1 1
    (hok 3) (by norm_num) (by norm_num) (fun _ => Nat.zero_lt_one) (fun _ _ => 1)
  refine ⟨out, out', h, h', ⟨line_near 2 1 (by norm_num)⟩, ?_⟩
  have e := C41_mcconv_formula (k := 0) gauss id .gpu (1 / 100) invDensityLayer (lineCloud 2) (lineCloud 1) 1 1 (hok 2) _ _ h
    (0 : Fin 1) 0
  have e' := C41_mcconv_formula (k := 0) gauss id .gpu (1 / 100) invDensityLayer (lineCloud 3) (lineCloud 1) 1 1 (hok 3) _ _ h'
    (0 : Fin 1) 0
  have hmlp : ∀ x : ℕ → ℝ, mlpEval (id : ℝ → ℝ) 0 2 [⟨1, fun _ _ _ => 0, fun _ _ => 1⟩] x 0 = 1 := by
    intro x
    simp [mlpEval]
  have hn2 : nbrs (lineCloud 2) (lineCloud 1) 1 (0 : Fin 1) = {(0 : Fin 2), (1 : Fin 2)} := by
    ext p
    simp only [nbrs, Finset.mem_filter, Finset.mem_univ, true_and, line_dist]
    fin_cases p <;> norm_num
  have hn3 : nbrs (lineCloud 3) (lineCloud 1) 1 (0 : Fin 1) = {(0 : Fin 3), (1 : Fin 3)} := by
    ext p
    simp only [nbrs, Finset.mem_filter, Finset.mem_univ, true_and, line_dist]
    fin_cases p <;> norm_num
  unfold mcSpec at e e'
  rw [hn2, Finset.sum_pair (by decide)] at e
  rw [hn3, Finset.sum_pair (by decide)] at e'
  simp only [invDensityLayer, MCLayer.hid, List.getLast?_singleton, Option.map_some, Option.getD_some,
    Finset.sum_range_one, one_mul, mul_one, Nat.div_one, Nat.zero_div, hmlp, line_density, Fin.sum_univ_two] at e
  simp only [invDensityLayer, MCLayer.hid, List.getLast?_singleton, Option.map_some, Option.getD_some,
    Finset.sum_range_one, one_mul, mul_one, Nat.div_one, Nat.zero_div, hmlp, line_density, Fin.sum_univ_three] at e'
  norm_num at e e'
  rw [e, e']
  have g0 := gauss_pos 0
  have g1 := gauss_pos (3 / 4)
  have g2 := gauss_pos (-(3 / 4))
  intro hc
  have h1 := add_left_cancel hc
  rw [inv_inj] at h1
  have := mul_pos g1 g0
  linarith

/-- Two layers of radius 1/2. -/
noncomputable abbrev twoLayers : List (MCLayer ℝ × ℝ × ℝ × ((ℕ → ℝ) → ℕ → ℝ)) :=
  [(invDensityLayer, 1 / 2, 1, fun f o => f o + 1), (invDensityLayer, 1 / 2, 1, id)]

theorem line_run (n : ℕ) (hn : 0 < n) (f : Fin n → ℕ → ℝ) : ∃ out : Fin n → ℕ → ℝ,
    MCChain (k := 0) gauss id .gpu (1 / 100) (lineCloud n) twoLayers f out := by
  have run : ∀ f : Fin n → ℕ → ℝ, ∃ out : Fin n → ℕ → ℝ, invDensityLayer.call (k := 0) gauss id .gpu (1 / 100)
      (lineCloud n) (lineCloud n) (1 / 2) 1 f = .ok out := fun f =>
    C41_mcconv_returns (k := 0) gauss id (1 / 100) invDensityLayer (lineCloud n) (lineCloud n) (1 / 2) 1
      ⟨fun _ => Nat.zero_lt_one, by norm_num, by norm_num⟩ hn hn (fun _ => Nat.zero_lt_one) f
  obtain ⟨g, hg⟩ := run f
  obtain ⟨out, ho⟩ := run (fun i => (fun (f : ℕ → ℝ) o => f o + 1) (g i))
  have c2 : MCChain (k := 0) gauss id .gpu (1 / 100) (lineCloud n) [(invDensityLayer, 1 / 2, 1, id)]
      (fun i => (fun (f : ℕ → ℝ) o => f o + 1) (g i)) (fun i => id (out i)) :=
    MCChain.cons (k := 0) invDensityLayer (1 / 2) 1 id [] _ out _ ho (MCChain.nil _)
  exact ⟨fun i => id (out i), MCChain.cons (c := lineCloud n) invDensityLayer (1 / 2) 1 (fun f o => f o + 1)
    [(invDensityLayer, 1 / 2, 1, id)] f g (fun i => id (out i)) hg c2⟩

/-- On three and on four points both chains run, and the results at the first point are equal,
because the fourth point is further away than 2. -/
example : ∃ (out : Fin 3 → ℕ → ℝ) (out' : Fin 4 → ℕ → ℝ),
    MCChain (k := 0) gauss id .gpu (1 / 100) (lineCloud 3) twoLayers (fun i _ => (i.val : ℝ)) out ∧
    MCChain (k := 0) gauss id .gpu (1 / 100) (lineCloud 4) twoLayers (fun i _ => (i.val : ℝ)) out' ∧
    out' 0 = out 0 := by
  obtain ⟨out, c1⟩ := line_run 3 (by norm_num) (fun i _ => (i.val : ℝ))
  obtain ⟨out', c2⟩ := line_run 4 (by norm_num) (fun i _ => (i.val : ℝ))
  refine ⟨out, out', c1, c2, ?_⟩
  have hr : ∀ l ∈ twoLayers, 0 < l.2.1 := by
    intro l hl
    simp only [List.mem_cons, List.not_mem_nil, or_false] at hl
    rcases hl with rfl | rfl <;> norm_num
  have hf : fieldRadius twoLayers ≤ 2 := by
    simp only [fieldRadius]
    norm_num
  exact C136_chain (k := 0) gauss id .gpu .gpu (1 / 100) (1 / 100) (by norm_num) (by norm_num) (fun _ => Nat.zero_lt_one)
    (fun _ => Nat.zero_lt_one) twoLayers hr (line_near 3 2 (by norm_num)) hf (i := (0 : Fin 3)) (i' := (0 : Fin 4)) rfl rfl
    rfl (by simp) _ _ _ _ (fun p => rfl) (by simp) c1 c2

end PC
