import Verif.GpuNet
import Verif.Props.GpuLayer
import Verif.Props.CudaSampling
import Verif.Props.Nets

/-!
# C110: hierarchies built on the GPU
-/

set_option linter.unusedVariables false
set_option linter.unusedSectionVars false

namespace PC

section
variable {K : Type*} [Field K] [LinearOrder K] [IsStrictOrderedRing K] [FloorRing K] {k : ℕ}

/-! ## Which Poisson samples the TensorFlow loop can return -/

theorem poissonReach_of {h : Nbh k K} (hsl : ∀ c q : Fin h.g.c.n, q ∈ h.slice c.val ↔ Near h q c)
    (out : List (Fin h.g.c.n)) (hp : out.Pairwise (fun a b => ¬ Near h b a)) :
    ∃ A : Finset (Fin h.g.c.n), PoissonReach h (A, out) ∧ ∀ q, q ∈ A ↔ ∀ c ∈ out, ¬ Near h q c := by
  induction out using List.reverseRecOn with
  | nil => exact ⟨Finset.univ, Relation.ReflTransGen.refl, by simp⟩
  | append_singleton out c ih =>
    rw [List.pairwise_append] at hp
    obtain ⟨A, hA, hmem⟩ := ih hp.1
    have hc : c ∈ A := (hmem c).mpr (fun a ha => hp.2.2 a ha c (by simp))
    refine ⟨_, hA.tail (PoissonStep.step A out c hc), fun q => ?_⟩
    rw [Finset.mem_sdiff, List.mem_toFinset, hsl, hmem]
    simp only [List.mem_append, List.mem_singleton]
    constructor
    · rintro ⟨h1, h2⟩ x (hx | rfl)
      · exact h1 x hx
      · exact h2
    · intro h1
      exact ⟨fun x hx => h1 x (Or.inl hx), h1 c (Or.inr rfl)⟩

/-- **C110, Poisson samples.** The results of the TensorFlow sampling loop are exactly
the lists of points, in any order, that are separated and cover the cloud. -/
theorem C110_poisson_results (dev : Device) (g : Grid (k + 2) K) (radii : Fin (k + 2) → K)
    (h : Nbh k K) (hnew : Nbh.new dev g radii none = .ok h) (hreg : Regular h) (out : List (Fin h.g.c.n)) :
    PoissonResult h out ↔
      (out.Pairwise (fun a b => ¬ (h.g.sortedBatch b = h.g.sortedBatch a ∧
        normLt (fun d => h.g.sortedPts b d - h.g.sortedPts a d) (radii 0))) ∧
      ∀ q, ∃ c ∈ out, h.g.sortedBatch q = h.g.sortedBatch c ∧
        normLt (fun d => h.g.sortedPts q d - h.g.sortedPts c d) (radii 0)) := by
  have hrad : h.radii = radii := (new_pairs hnew).2.1
  rw [← hrad]
  constructor
  · intro hout
    obtain ⟨h1, h2, _, _⟩ := poisson_invariant hreg.radius_pos (slice_self hnew hreg) hout
    refine ⟨h2, fun q => ?_⟩
    have := h1 q
    simp only [Finset.notMem_empty, false_iff, not_forall, not_not] at this
    obtain ⟨c, hc, hN⟩ := this
    exact ⟨c, hc, hN⟩
  · rintro ⟨h1, h2⟩
    obtain ⟨A, hA, hmem⟩ := poissonReach_of (slice_self hnew hreg) out h1
    have : A = ∅ := by
      rw [Finset.eq_empty_iff_forall_notMem]
      intro q hq
      obtain ⟨c, hc, hN⟩ := h2 q
      exact (hmem q).mp hq c hc hN
    rw [this] at hA
    exact hA

/-! ## One sampling operation -/

/-- Two clouds with the same points and batch ids, in possibly different order. -/
def SameCloud {D : ℕ} (c c' : Cloud (Fin D → K)) : Prop :=
  c'.B = c.B ∧ ∃ e : Fin c.n ≃ Fin c'.n, ∀ i, c'.pts (e i) = c.pts i ∧ c'.batch (e i) = c.batch i

theorem SameCloud.refl {D : ℕ} (c : Cloud (Fin D → K)) : SameCloud c c :=
  ⟨rfl, Equiv.refl _, fun _ => ⟨rfl, rfl⟩⟩

theorem SameCloud.elem {D : ℕ} {c c' : Cloud (Fin D → K)} (h : SameCloud c c') (b : ℕ) :
    Nonempty (SameElem c c' b b) := by
  obtain ⟨_, e, he⟩ := h
  exact ⟨⟨e.subtypeEquiv (fun i => by rw [(he i).2]), fun p => (he p.1).1⟩⟩

theorem center_cuSorted (g : Grid (k + 2) K) (i : ℕ) : g.cuSorted.center i = cuSorted g i := rfl

theorem lists_exact (Ws : ℕ) (g : Grid (k + 2) K) (hcs : ∀ d, 0 < g.cs d) (hW : 0 < Ws) (hn : 0 < g.c.n)
    (hone : g.c.n ≤ 512 + Ws * 64) (nb : Pairs g.c.n g.cuSorted.n) (h : GpuFind Ws g g.cuSorted g.cs nb) :
    NbExact g g.cs nb.lists := by
  obtain ⟨⟨_, _, _, h1⟩, h2, _⟩ := gpuFind_spec Ws g g.cuSorted g.cs hcs (fun _ => le_rfl) hW hn hone nb h
  intro i hi j
  unfold Pairs.lists
  dsimp only
  have e0 : (if i > 0 then nb.ranges.getD (i - 1) 0 else 0) = (if i = 0 then 0 else nb.ranges.getD (i - 1) 0) := by
    rcases Nat.eq_zero_or_pos i with h | h
    · simp [h]
    · rw [if_pos h, if_neg (by omega)]
  rw [e0]
  simp only [List.mem_map, mem_take_drop]
  have h3 : ∀ q : Fin g.c.n, (q, (⟨i, hi⟩ : Fin g.cuSorted.n)) ∈ nb.pairs ↔
      g.c.batch (cuPerm g q) = g.c.batch (cuPerm g ⟨i, hi⟩) ∧
      ∑ d, ((g.c.pts (cuPerm g ⟨i, hi⟩) d - g.c.pts (cuPerm g q) d) / g.cs d) ^ 2 < 1 := fun q => h2 q ⟨i, hi⟩
  constructor
  · rintro ⟨x, ⟨t, a1, a2, rfl⟩, rfl⟩
    refine ⟨(nb.pairs.get t).1.isLt, (h3 _).mp ?_⟩
    have := (h1 ⟨i, hi⟩ t).mp ⟨a1, a2⟩
    rw [← this]
    exact List.get_mem _ _
  · rintro ⟨hj, hx⟩
    obtain ⟨t, ht⟩ := List.mem_iff_get.mp ((h3 ⟨j, hj⟩).mpr hx)
    have := (h1 ⟨i, hi⟩ t).mpr (by rw [ht])
    exact ⟨_, ⟨t, this.1, this.2, rfl⟩, by rw [ht]⟩

/-- The specification of C60 and C83 for the composed operation: a sample of the
cloud, in the order of the output. -/
theorem gpuSample_poisson (Ws : ℕ) (g : Grid (k + 2) K) (hcs : ∀ d, 0 < g.cs d) (hW : 0 < Ws) (hn : 0 < g.c.n)
    (hone : g.c.n ≤ 512 + Ws * 64) (c : Cloud (Fin (k + 2) → K)) (h : GpuSample Ws g 0 c) :
    c.B = g.c.B ∧ ∃ sel : Fin c.n → Fin g.c.n, IsPoissonSample g.c g.cs sel ∧
      ∀ u, c.pts u = g.c.pts (sel u) ∧ c.batch u = g.c.batch (sel u) := by
  obtain ⟨nb, Vc, Vs, Vp, Vo, n, hf, v1, v2, v3, v4, h⟩ := h
  rw [if_pos rfl] at h
  obtain ⟨out, hrun, rfl⟩ := h
  obtain ⟨_, _, sel, h1, h2⟩ := C60_poisson g hn g.cs hcs (fun _ => le_rfl) _ (lists_exact Ws g hcs hW hn hone nb hf)
    Vc Vs Vp Vo v1 v2 v3 v4 n out hrun
  refine ⟨rfl, sel, h1, fun u => ?_⟩
  obtain ⟨hu, e⟩ := h2 u
  dsimp only
  rw [center_cuSorted, cuSorted, dif_pos hu, e]
  exact ⟨rfl, rfl⟩

/-- **C110, one Poisson sample.** With cells of equal sides, whatever the schedules of
the kernels, the cloud sampled on the GPU is one that the TensorFlow function may
return, with the points in the same order. -/
theorem C110_poisson_refines_partial (Ws : ℕ) (dev : Device) (c : Cloud (Fin (k + 2) → K)) (hv : c.Valid) (hn : 0 < c.n)
    (r eps : K) (hr : 0 < r) (heps : 0 < eps) (hW : 0 < Ws) (hone : c.n ≤ 512 + Ws * 64)
    (h : Nbh k K) (hnew : Nbh.new dev (⟨c, fun _ => r, eps⟩ : Grid (k + 2) K) (fun _ => r) none = .ok h)
    (s : Cloud (Fin (k + 2) → K)) (hs : GpuSample Ws (⟨c, fun _ => r, eps⟩ : Grid (k + 2) K) 0 s) :
    SamplingResult h 0 s := by
  obtain ⟨hB, sel, h1, h2⟩ := gpuSample_poisson Ws (⟨c, fun _ => r, eps⟩ : Grid (k + 2) K) (fun _ => hr) hW hn hone s hs
  obtain ⟨e1, e2, e3, _, _⟩ := new_pairs hnew
  have hreg : Regular h := by
    refine ⟨?_, ?_, ?_, ?_, ?_⟩
    · rw [e1]; exact hv
    · rw [e2]; exact hr
    · intro d; rw [e2]
    · rw [e1, e2]
    · rw [e1]; exact heps
  obtain ⟨g', rad', smp, eq', nb'⟩ := h
  simp only [Option.getD_none] at e1 e2 e3
  subst e1 e2 e3
  have hlen : ∀ (out : List (Fin c.n)), out.length = s.n →
      (∀ u (hu : u < s.n) (hu' : u < out.length), (⟨c, fun _ => r, eps⟩ : Grid (k + 2) K).perm out[u] = sel ⟨u, hu⟩) →
      PoissonResult (⟨⟨c, fun _ => r, eps⟩, fun _ => r, _, eq', nb'⟩ : Nbh k K) out →
      SamplingResult (⟨⟨c, fun _ => r, eps⟩, fun _ => r, Grid.sortedCloud ⟨c, fun _ => r, eps⟩, eq', nb'⟩ : Nbh k K) 0 s := by
    intro out hl hp hres
    have := SamplingResult.poisson (h := (⟨⟨c, fun _ => r, eps⟩, fun _ => r, Grid.sortedCloud ⟨c, fun _ => r, eps⟩, eq', nb'⟩ : Nbh k K)) out hres
    have hc : (poissonSample (⟨⟨c, fun _ => r, eps⟩, fun _ => r, Grid.sortedCloud ⟨c, fun _ => r, eps⟩, eq', nb'⟩ : Nbh k K) out).1 = s := by
      obtain ⟨sn, sp, sb, sB⟩ := s
      dsimp only at hl sel h1 h2 hp hB
      subst hl
      unfold poissonSample
      simp only [Cloud.mk.injEq, heq_eq_eq, true_and]
      refine ⟨?_, ?_, hB.symm⟩
      · funext u
        rw [(h2 u).1]
        show c.pts _ = c.pts _
        rw [← hp u.val u.isLt u.isLt]
        rfl
      · funext u
        rw [(h2 u).2]
        show c.batch _ = c.batch _
        rw [← hp u.val u.isLt u.isLt]
        rfl
    rw [hc] at this
    exact this
  have hgets : ∀ u : Fin s.n, (⟨c, fun _ => r, eps⟩ : Grid (k + 2) K).perm
      ((⟨c, fun _ => r, eps⟩ : Grid (k + 2) K).perm.symm (sel u)) = sel u := fun u => Equiv.apply_symm_apply _ _
  refine hlen (List.ofFn (fun u => (⟨c, fun _ => r, eps⟩ : Grid (k + 2) K).perm.symm (sel u))) (by simp) ?_ ?_
  · intro u hu hu'
    rw [List.getElem_ofFn]
    exact hgets ⟨u, hu⟩
  · rw [C110_poisson_results dev _ _ _ hnew hreg]
    constructor
    · rw [List.pairwise_ofFn]
      rintro u v huv ⟨q1, q2⟩
      have q1' : c.batch (sel v) = c.batch (sel u) := by
        simpa [Grid.sortedBatch] using q1
      have q2' : normLt (fun d => c.pts (sel v) d - c.pts (sel u) d) r := by
        simpa [Grid.sortedPts] using q2
      rw [scaled_lt_iff _ _ hr] at q2'
      exact absurd q2' (not_lt.mpr (h1.separated u v (ne_of_lt huv) q1'.symm))
    · intro q
      obtain ⟨u, a1, a2⟩ := h1.covers ((⟨c, fun _ => r, eps⟩ : Grid (k + 2) K).perm q)
      refine ⟨(⟨c, fun _ => r, eps⟩ : Grid (k + 2) K).perm.symm (sel u), by simp [List.mem_ofFn], ?_, ?_⟩
      · simpa [Grid.sortedBatch] using a1.symm
      · have : normLt (fun d => c.pts ((⟨c, fun _ => r, eps⟩ : Grid (k + 2) K).perm q) d - c.pts (sel u) d) r := by
          rw [scaled_lt_iff _ _ hr, scaled_comm]
          exact a2
        simpa [Grid.sortedPts] using this

/-- **C110, one cell average.** Whatever the schedules of the kernels, the cloud of cell
averages has the points of the TensorFlow function. -/
theorem C110_average_same (Ws : ℕ) (g : Grid (k + 2) K) (hv : g.c.Valid) (hcs : ∀ d, 0 < g.cs d) (heps : 0 < g.eps)
    (hn : 0 < g.c.n) (s : Cloud (Fin (k + 2) → K)) (hs : GpuSample Ws g 1 s) :
    SameCloud (cellAverage g g.c.B) s := by
  obtain ⟨nb, Vc, Vs, Vp, Vo, n, hf, v1, v2, v3, v4, h⟩ := hs
  rw [if_neg one_ne_zero] at h
  obtain ⟨out, hrun, rfl⟩ := h
  obtain ⟨e, he⟩ := C61_equals_tf g hn hv hcs heps Vc Vs Vo v1 v2 v4 n g.c.B out hrun
  refine ⟨rfl, e.symm, fun i => ?_⟩
  obtain ⟨a, b⟩ := he (e.symm i)
  rw [Equiv.apply_symm_apply] at a b
  dsimp only
  rw [a, b]
  exact ⟨rfl, Int.toNat_natCast _⟩

/-! ## All levels -/

/-- A cell size given as a vector with one entry, as the training scripts do. -/
def oneSize (r : K) : Arg K := ⟨[1], [r]⟩

theorem completeCellSizes_one (r : K) : ∃ l, completeCellSizes (k + 2) (oneSize r) = .ok l ∧
    (vecOf l : Fin (k + 2) → K) = fun _ => r := by
  refine ⟨[r] ++ List.replicate (k + 2 - 1) r, ?_, ?_⟩
  · unfold completeCellSizes oneSize
    dsimp only
    rw [if_pos (by omega)]
    rfl
  · funext d
    unfold vecOf
    rw [List.getD_eq_getElem?_getD]
    have hd : d.val < ([r] ++ List.replicate (k + 2 - 1) r).length := by
      have := d.isLt
      simp only [List.length_append, List.length_singleton, List.length_replicate]
      omega
    rw [List.getElem?_eq_getElem hd, Option.getD_some]
    have : ∀ x ∈ [r] ++ List.replicate (k + 2 - 1) r, x = r := by
      intro x hx
      rcases List.mem_append.mp hx with h | h
      · simpa using h
      · exact List.eq_of_mem_replicate h
    exact this _ (List.getElem_mem _)

theorem SameElem.trans {D : ℕ} {c c' c'' : Cloud (Fin D → K)} {b b' b'' : ℕ} (s : SameElem c c' b b')
    (t : SameElem c' c'' b' b'') : Nonempty (SameElem c c'' b b'') :=
  ⟨⟨s.e.trans t.e, fun p => by rw [← s.pts, ← t.pts]; rfl⟩⟩

theorem sameCloud_of_elem {D : ℕ} {c c' : Cloud (Fin D → K)} (hB : c'.B = c.B)
    (h : ∀ b, Nonempty (SameElem c c' b b)) : SameCloud c c' := by
  have s := fun b => Classical.choice (h b)
  refine ⟨hB, (Equiv.sigmaFiberEquiv c.batch).symm.trans ((Equiv.sigmaCongrRight (fun b => (s b).e)).trans
    (Equiv.sigmaFiberEquiv c'.batch)), fun i => ⟨?_, ?_⟩⟩
  · exact (s (c.batch i)).pts ⟨i, rfl⟩
  · exact ((s (c.batch i)).e ⟨i, rfl⟩).2

theorem SameCloud.coarsens {D : ℕ} {c p q : Cloud (Fin D → K)} (h : SameCloud p q) (hc : Coarsens c p) :
    Coarsens c q := by
  obtain ⟨hB, e, he⟩ := h
  have hcnt : ∀ b, q.countIn b = p.countIn b := by
    intro b
    unfold Cloud.countIn
    refine (Finset.card_bij (fun i _ => e i) ?_ ?_ ?_).symm
    · intro i hi
      simp only [Finset.mem_filter, Finset.mem_univ, true_and] at hi ⊢
      rw [(he i).2, hi]
    · intro i _ j _ hij
      exact e.injective hij
    · intro j hj
      simp only [Finset.mem_filter, Finset.mem_univ, true_and] at hj
      refine ⟨e.symm j, ?_, Equiv.apply_symm_apply _ _⟩
      simp only [Finset.mem_filter, Finset.mem_univ, true_and]
      rw [← (he _).2, Equiv.apply_symm_apply, hj]
  refine ⟨hB.trans hc.batchSize, ?_, fun b => ?_, fun b hb => ?_⟩
  · intro j
    have := hc.valid (e.symm j)
    rw [← (he _).2, Equiv.apply_symm_apply] at this
    rw [hB]
    exact this
  · rw [hcnt]; exact hc.shrinks b
  · rw [hcnt]; exact hc.keeps b hb

/-- The six documented names of sampling modes. -/
abbrev modeNames : List String := ["poisson", "poisson disk", "poisson_disk", "average", "cell average", "cell_average"]

theorem sampleModes_of {s : String} (h : s ∈ modeNames) :
    (s ∈ ["poisson", "poisson disk", "poisson_disk"] ∧ sampleModes s = some 0) ∨
    (s ∈ ["average", "cell average", "cell_average"] ∧ sampleModes s = some 1) := by
  simp only [modeNames, List.mem_cons, List.not_mem_nil, or_false] at h
  rcases h with rfl | rfl | rfl | rfl | rfl | rfl <;> simp [sampleModes]

theorem sampleModes_poisson {s : String} (h : s ∈ ["poisson", "poisson disk", "poisson_disk"]) :
    sampleModes s = some 0 := by
  simp only [List.mem_cons, List.not_mem_nil, or_false] at h
  rcases h with rfl | rfl | rfl <;> rfl

/-- Conditions on the current cloud of the constructor's loop. -/
structure GpuStepOk {α : Type*} (Ws : ℕ) (bs : Option (List ℕ)) (c : Cloud α) : Prop where
  valid : c.Valid
  pos : 0 < c.n
  one : c.n ≤ 512 + Ws * 64
  shape : ∀ sh, bs = some sh → sh.prod = c.B

theorem coarsens_n {α : Type*} {c c' : Cloud α} (hv : c.Valid) (h : Coarsens c c') : c'.n ≤ c.n := by
  have h1 := members_sum c hv
  have h2 := members_sum c' h.valid
  rw [← h1, ← h2, h.batchSize]
  apply List.sum_le_sum
  intro b _
  rw [members_length, members_length]
  exact h.shrinks b

theorem GpuStepOk.next {α : Type*} {Ws : ℕ} {bs : Option (List ℕ)} {c c' : Cloud α} (h : GpuStepOk Ws bs c)
    (hc : Coarsens c c') : GpuStepOk Ws bs c' := by
  refine ⟨hc.valid, ?_, (coarsens_n h.valid hc).trans h.one, fun sh hs => by rw [hc.batchSize]; exact h.shape sh hs⟩
  obtain ⟨i, _⟩ := Finset.card_pos.mp (hc.keeps (c.batch ⟨0, h.pos⟩) (Finset.card_pos.mpr ⟨⟨0, h.pos⟩, by simp⟩))
  exact lt_of_le_of_lt (Nat.zero_le _) i.isLt

theorem nbhNew_gpu (c : Cloud (Fin (k + 2) → K)) (hv : c.Valid) (hn : 0 < c.n) {r eps : K} (hr : 0 < r) (heps : 0 < eps) :
    ∃ h, Nbh.new .gpu (⟨c, fun _ => r, eps⟩ : Grid (k + 2) K) (fun _ => r) none = .ok h := by
  obtain ⟨x, hx⟩ := findNeighbors_gpu_returns (⟨c, fun _ => r, eps⟩ : Grid (k + 2) K)
    (Grid.sortedCloud ⟨c, fun _ => r, eps⟩) (fun _ => r) hv (fun _ => hr) heps hn (fun i => hv _)
  unfold Nbh.new
  dsimp only
  rw [hx]
  exact ⟨_, rfl⟩

theorem gpuSample_B {Ws : ℕ} {g : Grid (k + 2) K} {m : ℕ} {c : Cloud (Fin (k + 2) → K)} (h : GpuSample Ws g m c) :
    c.B = g.c.B := by
  obtain ⟨nb, Vc, Vs, Vp, Vo, n, hf, v1, v2, v3, v4, h⟩ := h
  split at h
  · obtain ⟨out, _, rfl⟩ := h
    rfl
  · obtain ⟨out, _, rfl⟩ := h
    rfl

theorem setBatchShape_ok {α : Type*} {bs : Option (List ℕ)} {c : Cloud α} (h : ∀ sh, bs = some sh → sh.prod = c.B) :
    ((CloudObj.ofCloud c).setBatchShape bs).1 = .ok () := by
  unfold CloudObj.setBatchShape
  cases bs with
  | none => rfl
  | some sh =>
    have h' : sh.prod = (CloudObj.ofCloud c).c.B := h sh rfl
    dsimp only
    rw [if_pos h']
    rfl

/-- One level on the GPU: no exception, and a corresponding level of the TensorFlow
code. -/
theorem gpuLevelStep_spec {Ws : ℕ} (hW : 0 < Ws) {eps r : K} (heps : 0 < eps) (hr : 0 < r) {lower : String → String}
    {mode : String} (hm : lower mode ∈ modeNames) {bs : Option (List ℕ)} {o : CloudObj (Fin (k + 2) → K)}
    (ho : GpuStepOk Ws bs o.c) {res : Except Err (CloudObj (Fin (k + 2) → K))}
    (h : GpuLevelStep Ws eps lower mode bs o (oneSize r) res) :
    ∃ o' p nh, res = .ok o' ∧ LevelStep .gpu eps lower mode bs o (oneSize r) (.ok (p, (fun _ => r), nh)) ∧
      o' = ((CloudObj.ofCloud o'.c).setBatchShape bs).2 ∧ SameCloud p.c o'.c ∧
      (lower mode ∈ ["poisson", "poisson disk", "poisson_disk"] → p = o') := by
  obtain ⟨l, hl, hvec⟩ := completeCellSizes_one (k := k) r
  have key : ∀ m c, sampleModes (lower mode) = some m → GpuSample Ws (⟨o.c, fun _ => r, eps⟩ : Grid (k + 2) K) m c →
      ∃ p nh, LevelStep .gpu eps lower mode bs o (oneSize r) (.ok (p, (fun _ => r), nh)) ∧
      SameCloud p.c c ∧ (lower mode ∈ ["poisson", "poisson disk", "poisson_disk"] →
        p = ((CloudObj.ofCloud c).setBatchShape bs).2) := by
    intro m c hmode hs
    obtain ⟨nh, hnew⟩ := nbhNew_gpu o.c ho.valid ho.pos hr heps
    have hnew' : Nbh.new .gpu (⟨o.c, vecOf l, eps⟩ : Grid (k + 2) K) (vecOf l) none = .ok nh := by
      rw [hvec]; exact hnew
    have step : ∀ c', SampleResult nh lower mode (.ok c') → c'.B = o.c.B →
        LevelStep .gpu eps lower mode bs o (oneSize r) (.ok (((CloudObj.ofCloud c').setBatchShape bs).2, (fun _ => r), nh)) := by
      intro c' hc' hB
      have := LevelStep.ok (bs := bs) (o := o) l nh c' hl hnew' hc' (setBatchShape_ok (fun sh hsh => by rw [hB]; exact ho.shape sh hsh))
      rw [hvec] at this
      exact this
    have hcB : c.B = o.c.B := gpuSample_B hs
    rcases sampleModes_of hm with ⟨hp, h0⟩ | ⟨ha, h1⟩
    · rw [h0, Option.some.injEq] at hmode
      subst hmode
      have hres := C110_poisson_refines_partial Ws .gpu o.c ho.valid ho.pos r eps hr heps hW ho.one nh hnew c hs
      refine ⟨_, nh, step c ?_ hcB, ?_, fun _ => rfl⟩
      · unfold SampleResult
        rw [h0]
        exact ⟨c, hres, rfl⟩
      · rw [setBatchShape_c]
        exact SameCloud.refl c
    · rw [h1, Option.some.injEq] at hmode
      subst hmode
      have hsame := C110_average_same Ws (⟨o.c, fun _ => r, eps⟩ : Grid (k + 2) K) ho.valid (fun _ => hr) heps ho.pos c hs
      refine ⟨_, nh, step (cellAverage nh.g nh.sample.B) ?_ ?_, ?_, ?_⟩
      · exact ((C28_sample_modes_partial nh lower mode).2.1 ha _).mpr rfl
      · show nh.sample.B = _
        rw [(new_pairs hnew).2.2.1]; rfl
      · rw [setBatchShape_c]
        show SameCloud (cellAverage nh.g nh.sample.B) c
        rw [(new_pairs hnew).1, (new_pairs hnew).2.2.1]
        exact hsame
      · intro hp
        rw [sampleModes_poisson hp] at h1
        cases h1
  cases h with
  | badSizes e he => rw [hl] at he; cases he
  | badMode l' _ hnone =>
    rcases sampleModes_of hm with ⟨_, h⟩ | ⟨_, h⟩ <;> rw [h] at hnone <;> cases hnone
  | badShape l' m c e hl' hmode hs hb =>
    rw [hl] at hl'
    cases hl'
    rw [hvec] at hs
    rw [setBatchShape_ok (fun sh hsh => by rw [gpuSample_B hs]; exact ho.shape sh hsh)] at hb
    cases hb
  | ok l' m c hl' hmode hs hb =>
    rw [hl] at hl'
    cases hl'
    rw [hvec] at hs
    obtain ⟨p, nh, h1, h2, h3⟩ := key m c hmode hs
    refine ⟨_, p, nh, rfl, h1, ?_, ?_, h3⟩
    · rw [setBatchShape_c]; rfl
    · rw [setBatchShape_c]; exact h2

/-- **C110, Poisson hierarchies.** With one cell size for all dimensions, whatever the
schedules, the hierarchy built on the GPU raises no exception, and its clouds are those of
a hierarchy the TensorFlow code may build from the same cloud. -/
theorem C110_poisson_hierarchy_partial {Ws : ℕ} (hW : 0 < Ws) {eps : K} (heps : 0 < eps) {lower : String → String}
    {mode : String} (hm : lower mode ∈ ["poisson", "poisson disk", "poisson_disk"])
    (o : CloudObj (Fin (k + 2) → K)) (ho : GpuStepOk Ws o.batchShape o.c) (rs : List K) (hrs : ∀ r ∈ rs, 0 < r)
    (res : Except Err (List (CloudObj (Fin (k + 2) → K))))
    (h : GpuLevels Ws eps lower mode o.batchShape o (rs.map oneSize) res) :
    ∃ os H, res = .ok os ∧ HierNew .gpu eps lower mode o (rs.map oneSize) (.ok H) ∧ H.clouds = o :: os := by
  have hm' : lower mode ∈ modeNames := by
    simp only [modeNames, List.mem_cons, List.not_mem_nil, or_false] at hm ⊢
    tauto
  have key : ∀ (rs : List K) (bs : Option (List ℕ)) (o : CloudObj (Fin (k + 2) → K)) res, (∀ r ∈ rs, 0 < r) →
      GpuStepOk Ws bs o.c → GpuLevels Ws eps lower mode bs o (rs.map oneSize) res →
      ∃ os ls, res = .ok os ∧ Levels .gpu eps lower mode bs o (rs.map oneSize) (.ok ls) ∧ ls.map (·.1) = os := by
    intro rs bs
    induction rs with
    | nil =>
      intro o res _ _ h
      cases h
      exact ⟨[], [], rfl, Levels.nil o, rfl⟩
    | cons r rs ih =>
      intro o res hrs ho h
      rw [List.map_cons] at h
      have hstep : ∀ res, GpuLevelStep Ws eps lower mode bs o (oneSize r) res →
          ∃ o' nh, res = .ok o' ∧ LevelStep .gpu eps lower mode bs o (oneSize r) (.ok (o', (fun _ => r), nh)) ∧
            GpuStepOk Ws bs o'.c := by
        intro res h
        obtain ⟨o', p, nh, h1, h2, _, _, h3⟩ := gpuLevelStep_spec hW heps (hrs r (by simp)) hm' ho h
        rw [h3 hm] at h2
        exact ⟨o', nh, h1, h2, ho.next (levelStep_spec heps ho.valid h2 (fun _ => hrs r (by simp))).1⟩
      cases h with
      | fail _ _ _ e hf =>
        obtain ⟨_, _, he, _⟩ := hstep _ hf
        cases he
      | failLater _ _ _ o' e hst hl =>
        obtain ⟨_, _, he, _, ho'⟩ := hstep _ hst
        cases he
        obtain ⟨_, _, he, _⟩ := ih o' _ (fun r hr => hrs r (by simp [hr])) ho' hl
        cases he
      | cons _ _ _ o' rest hst hl =>
        obtain ⟨_, nh, he, h2, ho'⟩ := hstep _ hst
        cases he
        obtain ⟨os, ls, he, h3, h4⟩ := ih o' _ (fun r hr => hrs r (by simp [hr])) ho' hl
        cases he
        exact ⟨_, _, rfl, Levels.cons o _ _ o' _ nh ls h2 h3, by rw [List.map_cons, h4]⟩
  obtain ⟨os, ls, h1, h2, h3⟩ := key rs o.batchShape o res hrs ho h
  exact ⟨os, _, h1, Or.inl ⟨ls, h2, rfl⟩, by rw [h3]⟩

/-- **C110, hierarchies of cell averages.** Whatever the schedules, the hierarchy built on
the GPU raises no exception, and on every level it has the points and batch ids of the
hierarchy the TensorFlow code builds, in possibly different order, and the same state of
the batch shape. -/
theorem C110_average_hierarchy_partial {Ws : ℕ} (hW : 0 < Ws) {eps : K} (heps : 0 < eps) {lower : String → String}
    {mode : String} (hm : lower mode ∈ ["average", "cell average", "cell_average"])
    (o : CloudObj (Fin (k + 2) → K)) (ho : GpuStepOk Ws o.batchShape o.c) (rs : List K) (hrs : ∀ r ∈ rs, 0 < r)
    (res : Except Err (List (CloudObj (Fin (k + 2) → K))))
    (h : GpuLevels Ws eps lower mode o.batchShape o (rs.map oneSize) res)
    (H : Hier k K) (hH : HierNew .gpu eps lower mode o (rs.map oneSize) (.ok H)) :
    ∃ os, res = .ok os ∧ List.Forall₂ (fun p q : CloudObj (Fin (k + 2) → K) => SameCloud p.c q.c ∧
      q.batchShape = p.batchShape) H.clouds (o :: os) := by
  have hm' : lower mode ∈ modeNames := by
    simp only [modeNames, List.mem_cons, List.not_mem_nil, or_false] at hm ⊢
    tauto
  have key : ∀ (rs : List K) (bs : Option (List ℕ)) (o p : CloudObj (Fin (k + 2) → K)) res ls, (∀ r ∈ rs, 0 < r) →
      GpuStepOk Ws bs o.c → p.c.Valid → SameCloud p.c o.c → GpuLevels Ws eps lower mode bs o (rs.map oneSize) res →
      Levels .gpu eps lower mode bs p (rs.map oneSize) (.ok ls) →
      ∃ os, res = .ok os ∧ List.Forall₂ (fun p q : CloudObj (Fin (k + 2) → K) => SameCloud p.c q.c ∧
        q.batchShape = p.batchShape) (ls.map (·.1)) os := by
    intro rs bs
    induction rs with
    | nil =>
      intro o p res ls _ _ _ _ h hl
      cases h
      cases hl
      exact ⟨[], rfl, .nil⟩
    | cons r rs ih =>
      intro o p res ls hrs ho hvp hsame h hls
      rw [List.map_cons] at h hls
      generalize hR : (Except.ok ls : Except Err _) = R at hls
      cases hls with
      | fail _ _ _ e _ => cases hR
      | failLater _ _ _ _ _ _ e _ _ => cases hR
      | cons _ _ _ p' cs nh rest hstp hlp =>
      cases hR
      have hr : 0 < r := hrs r (by simp)
      have hcs : cs = fun _ => r := by
        obtain ⟨l, hl, hvec⟩ := completeCellSizes_one (k := k) r
        cases hstp with
        | ok l' _ _ hl' _ _ _ =>
          rw [hl] at hl'
          cases hl'
          exact hvec
      have hstep : ∀ res, GpuLevelStep Ws eps lower mode bs o (oneSize r) res →
          ∃ o', res = .ok o' ∧ GpuStepOk Ws bs o'.c ∧ SameCloud p'.c o'.c ∧ o'.batchShape = p'.batchShape := by
        intro res h
        obtain ⟨o', q, nh', h1, h2, h4, h5, _⟩ := gpuLevelStep_spec hW heps hr hm' ho h
        have hco := levelStep_spec heps ho.valid h2 (fun _ => hr)
        have hcp := levelStep_spec heps hvp hstp (by rw [hcs]; exact fun _ => hr)
        refine ⟨o', h1, ho.next (h5.coarsens hco.1), ?_, ?_⟩
        · refine sameCloud_of_elem ?_ (fun b => ?_)
          · rw [h5.1, hco.1.batchSize, hcp.1.batchSize, hsame.1]
          · obtain ⟨s⟩ := hsame.elem b
            obtain ⟨_, ⟨t⟩⟩ := levelStep_elem heps hvp ho.valid hm s hstp h2 (by rw [hcs]; exact fun _ => hr)
            obtain ⟨u⟩ := h5.elem b
            exact t.trans u
        · have e1 : ∀ (c : Cloud (Fin (k + 2) → K)), ((CloudObj.ofCloud c).setBatchShape bs).1 = .ok () →
              ((CloudObj.ofCloud c).setBatchShape bs).2.batchShape = bs := by
            intro c hc
            unfold CloudObj.setBatchShape at hc ⊢
            cases bs with
            | none => rfl
            | some sh =>
              dsimp only at hc ⊢
              split at hc
              · rename_i hx
                rw [if_pos hx]
                rfl
              · cases hc
          rw [h4, e1 _ (setBatchShape_ok (ho.next (h5.coarsens hco.1)).shape)]
          cases hstp with
          | ok l' _ c hl' _ _ hb => exact (e1 c hb).symm
      cases h with
      | fail _ _ _ e hf =>
        obtain ⟨_, he, _⟩ := hstep _ hf
        cases he
      | failLater _ _ _ o' e hst hl =>
        obtain ⟨_, he, ho', hs', _⟩ := hstep _ hst
        cases he
        have hvp' := (levelStep_spec heps hvp hstp (by rw [hcs]; exact fun _ => hr)).1.valid
        obtain ⟨_, he, _⟩ := ih o' p' _ _ (fun r hr => hrs r (by simp [hr])) ho' hvp' hs' hl hlp
        cases he
      | cons _ _ _ o' rest' hst hl =>
        obtain ⟨_, he, ho', hs', hb'⟩ := hstep _ hst
        cases he
        have hvp' := (levelStep_spec heps hvp hstp (by rw [hcs]; exact fun _ => hr)).1.valid
        obtain ⟨os, he, hF⟩ := ih o' p' _ _ (fun r hr => hrs r (by simp [hr])) ho' hvp' hs' hl hlp
        cases he
        exact ⟨_, rfl, .cons ⟨hs', hb'⟩ hF⟩
  rcases hH with ⟨ls, hls, he⟩ | ⟨e, _, he⟩
  swap
  · cases he
  cases he
  obtain ⟨os, h1, h2⟩ := key rs o.batchShape o o res ls hrs ho ho.valid (SameCloud.refl _) h hls
  exact ⟨os, h1, .cons ⟨SameCloud.refl _, rfl⟩ h2⟩

/-- **C110.** The operation on the GPU has a run. -/
theorem C110_sample_runs {Ws : ℕ} (hW : 0 < Ws) (g : Grid (k + 2) K) (hcs : ∀ d, 0 < g.cs d) (hpos : 0 < g.c.n)
    (hone : g.c.n ≤ 512 + Ws * 64) (mode : ℕ) : ∃ c, GpuSample Ws g mode c := by
  obtain ⟨nb, hnb⟩ := gpuFind_exists Ws g g.cuSorted g.cs hcs (fun _ => le_rfl) hW hpos hone
  by_cases hm : mode = 0
  · obtain ⟨n, out, hp⟩ := C60_run_exists g.c.n 1 1 1 1 (cuSortedKeys g) (cuNc g) nb.lists
    exact ⟨⟨n, fun u => (g.cuSorted.center (out.out u.val).1).2, fun u => (g.cuSorted.center (out.out u.val).1).1, g.c.B⟩,
      nb, 1, 1, 1, 1, n, hnb, one_pos, one_pos, one_pos, one_pos, by rw [if_pos hm]; exact ⟨out, hp, rfl⟩⟩
  · obtain ⟨n, out, hp⟩ := C61_run_exists g.c.n 1 1 1 (cuSortedKeys g) (cuNc g) (fun i => (g.cuSorted.center i).2)
    exact ⟨⟨n, fun s => (out s.val).1, fun s => (out s.val).2.toNat, g.c.B⟩,
      nb, 1, 1, 1, 1, n, hnb, one_pos, one_pos, one_pos, one_pos, by rw [if_neg hm]; exact ⟨out, hp, rfl⟩⟩

/-- **C110.** The constructor on the GPU has a run. -/
theorem C110_runs {Ws : ℕ} (hW : 0 < Ws) {eps : K} (heps : 0 < eps) {lower : String → String}
    {mode : String} (hm : lower mode ∈ modeNames) (rs : List K) (hrs : ∀ r ∈ rs, 0 < r) (bs : Option (List ℕ))
    (o : CloudObj (Fin (k + 2) → K)) (ho : GpuStepOk Ws bs o.c) :
    ∃ res, GpuLevels Ws eps lower mode bs o (rs.map oneSize) res := by
  induction rs generalizing o with
  | nil => exact ⟨_, GpuLevels.nil o⟩
  | cons r rs ih =>
    have hr : 0 < r := hrs r (by simp)
    obtain ⟨l, hl, hvec⟩ := completeCellSizes_one (k := k) r
    have hsm : ∃ m c, sampleModes (lower mode) = some m ∧ GpuSample Ws (⟨o.c, fun _ => r, eps⟩ : Grid (k + 2) K) m c := by
      rcases sampleModes_of hm with ⟨_, h0⟩ | ⟨_, h1⟩
      · obtain ⟨c, hc⟩ := C110_sample_runs hW (⟨o.c, fun _ => r, eps⟩ : Grid (k + 2) K) (fun _ => hr) ho.pos ho.one 0
        exact ⟨0, c, h0, hc⟩
      · obtain ⟨c, hc⟩ := C110_sample_runs hW (⟨o.c, fun _ => r, eps⟩ : Grid (k + 2) K) (fun _ => hr) ho.pos ho.one 1
        exact ⟨1, c, h1, hc⟩
    obtain ⟨m, c, hmode, hs⟩ := hsm
    have hstep := GpuLevelStep.ok (Ws := Ws) (eps := eps) (lower := lower) (mode := mode) (bs := bs) (o := o)
      (a := oneSize r) l m c hl hmode (by rw [hvec]; exact hs)
      (setBatchShape_ok (fun sh hsh => by rw [gpuSample_B hs]; exact ho.shape sh hsh))
    obtain ⟨o', p, nh, he, h2, _, h5, _⟩ := gpuLevelStep_spec hW heps hr hm ho hstep
    cases he
    obtain ⟨res, hres⟩ := ih (fun r hr => hrs r (by simp [hr])) _
      (ho.next (h5.coarsens (levelStep_spec heps ho.valid h2 (fun _ => hr)).1))
    rw [List.map_cons]
    cases res with
    | error e => exact ⟨_, GpuLevels.failLater _ _ _ _ e hstep hres⟩
    | ok os => exact ⟨_, GpuLevels.cons _ _ _ _ os hstep hres⟩

end

/-- Two points 5 apart in the second dimension. -/
abbrev longCloud : Cloud (Fin 2 → ℚ) := ⟨2, ![![0, 0], ![0, 5]], ![0, 0], 1⟩

/-- A grid with cells of size 1 by 10. -/
abbrev longGrid : Grid 2 ℚ := ⟨longCloud, ![1, 10], 1⟩

/-- With cells of different sides (a relative radius of 1 by 10) the TensorFlow
version keeps both points: it compares with the first side only. -/
theorem long_tf (h : Nbh 0 ℚ) (hnew : Nbh.new .gpu longGrid longGrid.cs none = .ok h) (s : Cloud (Fin 2 → ℚ))
    (hs : SamplingResult h 0 s) : 2 ≤ s.n := by
  have key : (Nbh.new .gpu longGrid longGrid.cs none).map
      (fun h => (h.g.c.n, (h.slice 0).map Fin.val, (h.slice 1).map Fin.val)) = .ok (2, [0], [1]) := by decide +kernel
  rw [hnew] at key
  simp only [Except.map, Except.ok.injEq, Prod.mk.injEq] at key
  obtain ⟨hn, h0, h1⟩ := key
  cases hs with
  | poisson out hres =>
    have inv : ∀ st : PState h, PoissonReach h st → ∀ q, q ∈ st.1 ∨ q ∈ st.2 := by
      intro st hst
      induction hst with
      | refl => exact fun q => Or.inl (Finset.mem_univ q)
      | tail _ hstep ih =>
        cases hstep with
        | step alive out c hc =>
          intro q
          rcases ih q with hq | hq
          · by_cases hqc : q ∈ h.slice c.val
            · right
              have hc2 : c.val = 0 ∨ c.val = 1 := by have := c.isLt; omega
              have hv : q.val = c.val := by
                have hmem : q.val ∈ (h.slice c.val).map Fin.val := List.mem_map_of_mem hqc
                rcases hc2 with e | e
                · rw [e, h0] at hmem; rw [e]; simpa using hmem
                · rw [e, h1] at hmem; rw [e]; simpa using hmem
              have : q = c := Fin.ext hv
              simp [this]
            · left
              simp [hq, hqc]
          · right
            simp [hq]
    have hall := fun q => (inv _ hres q).resolve_left (Finset.notMem_empty q)
    show 2 ≤ out.length
    have hcard := (Finset.card_le_card (s := Finset.univ) (fun q _ => List.mem_toFinset.mpr (hall q))).trans
      (List.toFinset_card_le out)
    rw [Finset.card_univ, Fintype.card_fin] at hcard
    omega

/-- On the GPU one point remains: the kernels divide every coordinate by its own side. -/
theorem long_gpu (s : Cloud (Fin 2 → ℚ)) (hs : GpuSample 1 longGrid 0 s) : s.n ≤ 1 := by
  obtain ⟨_, sel, h1, _⟩ := gpuSample_poisson 1 longGrid (by decide +kernel) one_pos (by decide) (by decide) s hs
  by_contra hlt
  have hne : (⟨0, by omega⟩ : Fin s.n) ≠ ⟨1, by omega⟩ := by simp [Fin.ext_iff]
  have hb : ∀ a b : Fin longGrid.c.n, longGrid.c.batch a = longGrid.c.batch b := by decide
  have hd : ∀ a b : Fin longGrid.c.n,
      ∑ d, ((longGrid.c.pts a d - longGrid.c.pts b d) / longGrid.cs d) ^ 2 < 1 := by decide +kernel
  exact absurd (h1.separated _ _ hne (hb _ _)) (not_le.mpr (hd _ _))

/-- **C110, negation.** With cells of different sides a sample of the GPU need not be a
possible sample of the TensorFlow version. -/
theorem C110_poisson_refines_false :
    ¬ ∀ (g : Grid 2 ℚ) (h : Nbh 0 ℚ) (s : Cloud (Fin 2 → ℚ)), g.c.Valid → 0 < g.c.n → 0 < g.eps → (∀ d, 0 < g.cs d) →
      Nbh.new .gpu g g.cs none = .ok h → GpuSample 1 g 0 s → SamplingResult h 0 s := by
  intro hall
  obtain ⟨s, hs⟩ := C110_sample_runs (Ws := 1) one_pos longGrid (by decide +kernel) (by decide) (by decide) 0
  have key : (Nbh.new .gpu longGrid longGrid.cs none).map (fun h => h.g.c.n) = .ok 2 := by decide +kernel
  cases hh : Nbh.new .gpu longGrid longGrid.cs none with
  | error e => rw [hh] at key; simp [Except.map] at key
  | ok h =>
    have h1 := long_tf h hh s (hall longGrid h s (by decide) (by decide) one_pos (by decide +kernel) hh hs)
    have h2 := long_gpu s hs
    omega

/-- The hypotheses of C110 are met by a cloud of two points in the plane, in one batch of
shape `[1]`. -/
example : GpuStepOk 1 (some [1]) longCloud := ⟨by decide, by decide, by decide, by intro sh h; cases h; rfl⟩

/-- There are runs of the constructor with two levels on this cloud, in both modes. -/
example (mode : String) (hm : mode ∈ modeNames) :
    ∃ res, GpuLevels 1 (1 : ℚ) id mode (some [1]) (CloudObj.ofCloud longCloud) ([2, 6].map oneSize) res :=
  C110_runs one_pos one_pos hm [2, 6] (by decide +kernel) _ _
    ⟨by decide, by decide, by decide, by intro sh h; cases h; rfl⟩

end PC
