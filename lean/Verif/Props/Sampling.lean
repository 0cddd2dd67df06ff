import Verif.SamplingLemmas

/-!
# Properties C24–C30, C65: sampling
-/

set_option linter.unusedVariables false
set_option linter.unusedSectionVars false

namespace PC

section
variable {K : Type*} [Field K] [LinearOrder K] [IsStrictOrderedRing K] [FloorRing K] {k : ℕ}

/-! ## C24 -/

/-- **C24.** For a neighbourhood of a cloud with itself (positive radii, possibly
different ones per dimension), under every sequence of random choices: at most `N` points are selected, the loop
cannot run for ever, it can only stop when no candidate is left, and hence some
result exists. -/
theorem C24_poisson_terminates (dev : Device) (g : Grid (k + 2) K) (radii : Fin (k + 2) → K)
    (h : Nbh k K) (hnew : Nbh.new dev g radii none = .ok h) (hv : g.c.Valid) (hcs : g.cs = radii)
    (hpos : ∀ d, 0 < radii d) (heps : 0 < g.eps) :
    (∀ s, PoissonReach h s → s.2.length ≤ g.c.n) ∧
    (¬ ∃ run : ℕ → PState h, run 0 = poissonInit h ∧ ∀ t, PoissonStep h (run t) (run (t + 1))) ∧
    (∀ s, PoissonReach h s → (∃ s', PoissonStep h s s') ∨ s.1 = ∅) ∧
    ∃ out, PoissonResult h out := by
  obtain ⟨hself, hbatch⟩ := slice_self_weak hnew hv hcs hpos heps
  have hg : h.g = g := (new_pairs hnew).1
  have hinv := fun (s : PState h) (hs : PoissonReach h s) =>
    poisson_invariant_weak hself hbatch hs
  have hlen : ∀ s, PoissonReach h s → s.2.length + s.1.card ≤ g.c.n := by
    intro s hs
    have h1 := (hinv s hs).2.2.2
    have h2 : h.g.c.n = g.c.n := by rw [hg]
    omega
  have hprog : ∀ s, PoissonReach h s → (∃ s', PoissonStep h s s') ∨ s.1 = ∅ := by
    rintro ⟨A, out⟩ _
    rcases A.eq_empty_or_nonempty with hA | ⟨c, hc⟩
    · exact Or.inr hA
    · exact Or.inl ⟨_, PoissonStep.step A out c hc⟩
  refine ⟨fun s hs => by have := hlen s hs; omega, ?_, hprog, ?_⟩
  · rintro ⟨run, h0, hstep⟩
    have hreach : ∀ t, PoissonReach h (run t) ∧ (run t).2.length = t := by
      intro t
      induction t with
      | zero => rw [h0]; exact ⟨Relation.ReflTransGen.refl, rfl⟩
      | succ t ih =>
        refine ⟨ih.1.tail (hstep t), ?_⟩
        have hs := hstep t
        generalize run (t + 1) = s' at *
        generalize run t = s at *
        cases hs with
        | step A out c hc => have := ih.2; simp at this ⊢; omega
    have h1 := hreach (g.c.n + 1)
    have := hlen _ h1.1
    omega
  · have : ∀ m, ∀ s, PoissonReach h s → s.1.card ≤ m → ∃ out, PoissonResult h out := by
      intro m
      induction m with
      | zero =>
        rintro ⟨A, out⟩ hs hm
        have : A = ∅ := by simpa using hm
        subst this
        exact ⟨out, hs⟩
      | succ m ih =>
        rintro ⟨A, out⟩ hs hm
        rcases A.eq_empty_or_nonempty with hA | ⟨c, hc⟩
        · subst hA; exact ⟨out, hs⟩
        · have hst := PoissonStep.step A out c hc (h := h)
          refine ih _ (hs.tail hst) ?_
          have : (A \ (h.slice c.val).toFinset).card < A.card := by
            apply Finset.card_lt_card
            rw [Finset.ssubset_iff_of_subset Finset.sdiff_subset]
            refine ⟨c, hc, ?_⟩
            simp only [Finset.mem_sdiff, List.mem_toFinset, not_and, not_not]
            intro _
            exact hself c
          simp only at hm ⊢
          omega
    exact this _ _ Relation.ReflTransGen.refl le_rfl

end

/-- The grid of `C15_access_structure_eps0_false`. -/
abbrev divergeGrid : Grid 2 ℚ := ⟨⟨3, ![![0, 0], ![2, 0], ![2, 0]], ![0, 0, 0], 1⟩, ![1, 1], 0⟩

/-- **C24, negation when the 1e-9 margin is absorbed (`eps = 0`).** For the
points `(0,0), (2,0), (2,0)` and radius 1 on the GPU, the point `(2,0)` is not
found as its own neighbour, so the loop can select it for ever. -/
theorem C24_poisson_eps0_false :
    ∃ h : Nbh 0 ℚ, Nbh.new .gpu divergeGrid divergeGrid.cs none = .ok h ∧
      ∃ run : ℕ → PState h, run 0 = poissonInit h ∧ ∀ t, PoissonStep h (run t) (run (t + 1)) := by
  have key : (Nbh.new .gpu divergeGrid divergeGrid.cs none).map
      (fun h => (h.g.c.n, (h.slice 0).length)) = .ok (3, 0) := by decide +kernel
  cases hh : Nbh.new .gpu divergeGrid divergeGrid.cs none with
  | error e => rw [hh] at key; simp [Except.map] at key
  | ok h =>
    rw [hh] at key
    simp only [Except.map, Except.ok.injEq, Prod.mk.injEq] at key
    refine ⟨h, rfl, fun t => (Finset.univ, List.replicate t ⟨0, by omega⟩), rfl, ?_⟩
    intro t
    have := PoissonStep.step (h := h) Finset.univ (List.replicate t ⟨0, by omega⟩) ⟨0, by omega⟩
      (Finset.mem_univ _)
    simp only [List.eq_nil_of_length_eq_zero key.2, List.toFinset_nil, Finset.sdiff_empty] at this
    rwa [← List.replicate_succ'] at this

section
variable {K : Type*} [Field K] [LinearOrder K] [IsStrictOrderedRing K] [FloorRing K] {k : ℕ}

/-! ## C25 -/

/-- **C25.** Under every sequence of random choices, no input point is selected
twice and any two different samples of one batch element have distance at
least the radius. -/
theorem C25_poisson_separated (dev : Device) (g : Grid (k + 2) K) (radii : Fin (k + 2) → K)
    (h : Nbh k K) (hnew : Nbh.new dev g radii none = .ok h) (hreg : Regular h)
    (out : List (Fin h.g.c.n)) (hout : PoissonResult h out) :
    (poissonSample h out).2.Nodup ∧
    ∀ i j : Fin (poissonSample h out).1.n, i ≠ j →
      (poissonSample h out).1.batch i = (poissonSample h out).1.batch j →
      ¬ normLt (fun d => (poissonSample h out).1.pts i d - (poissonSample h out).1.pts j d) (radii 0) := by
  obtain ⟨_, hp, hnd, _⟩ := poisson_invariant hreg.radius_pos (slice_self hnew hreg) hout
  have hrad : h.radii = radii := (new_pairs hnew).2.1
  refine ⟨?_, ?_⟩
  · exact hnd.map h.g.perm.injective
  · intro i j hij hb hlt
    rw [← hrad] at hlt
    have hpw := List.pairwise_iff_get.mp hp
    have hN : Near h (out.get i) (out.get j) := ⟨hb, hlt⟩
    rcases lt_or_gt_of_ne hij with h1 | h1
    · exact hpw i j h1 (near_symm h hN)
    · exact hpw j i h1 hN

/-! ## C26 -/

/-- **C26.** When the sampling ends, every input point has a sample of its own
batch element closer than the radius. -/
theorem C26_poisson_covers (dev : Device) (g : Grid (k + 2) K) (radii : Fin (k + 2) → K)
    (h : Nbh k K) (hnew : Nbh.new dev g radii none = .ok h) (hreg : Regular h)
    (out : List (Fin h.g.c.n)) (hout : PoissonResult h out) (p : Fin g.c.n) :
    ∃ i : Fin (poissonSample h out).1.n, (poissonSample h out).1.batch i = g.c.batch p ∧
      normLt (fun d => (poissonSample h out).1.pts i d - g.c.pts p d) (radii 0) := by
  obtain ⟨hA, _, _, _⟩ := poisson_invariant hreg.radius_pos (slice_self hnew hreg) hout
  obtain ⟨hg, hrad, _⟩ := new_pairs hnew
  subst hg hrad
  have := hA (h.g.perm.symm p)
  simp only [Finset.notMem_empty, false_iff, not_forall, not_not] at this
  obtain ⟨c, hc, hN⟩ := this
  obtain ⟨i, hi⟩ := List.mem_iff_get.mp hc
  have hN := near_symm h hN
  refine ⟨i, ?_, ?_⟩
  · have := hN.1
    rw [← hi] at this
    simpa [poissonSample, Grid.sortedBatch] using this
  · have := hN.2
    rw [← hi] at this
    simpa [poissonSample, Grid.sortedPts] using this

/-- In particular every non-empty batch element keeps a sample. -/
theorem C26_poisson_nonempty (dev : Device) (g : Grid (k + 2) K) (radii : Fin (k + 2) → K)
    (h : Nbh k K) (hnew : Nbh.new dev g radii none = .ok h) (hreg : Regular h)
    (out : List (Fin h.g.c.n)) (hout : PoissonResult h out) (b : ℕ)
    (hb : ∃ p : Fin g.c.n, g.c.batch p = b) : ∃ i, (poissonSample h out).1.batch i = b := by
  obtain ⟨p, rfl⟩ := hb
  obtain ⟨i, hi, _⟩ := C26_poisson_covers dev g radii h hnew hreg out hout p
  exact ⟨i, hi⟩

/-- Non-vacuity of C24–C26: the self neighbourhood of five points in two batch
elements satisfies the hypotheses; choosing the sorted points 0, 1, 2, 4 is a
possible run that leaves no candidate. -/
example : exGrid.c.Valid ∧ 0 < exGrid.cs 0 ∧ 0 < exGrid.eps ∧
    (Nbh.new .gpu exGrid exGrid.cs none).map (fun h => [h.slice 0, h.slice 1, h.slice 2, h.slice 4].map
      (fun l => l.map (fun q => q.val))) = .ok [[0], [1], [2], [3, 4]] := by
  refine ⟨by decide, by decide +kernel, by decide +kernel, by decide +kernel⟩

/-! ## C27 -/

/-- **C27.** The `i`-th sampled point and its batch id are those of the input
cloud at the `i`-th returned index, and the batch size is the input's. -/
theorem C27_sample_ids (dev : Device) (g : Grid (k + 2) K) (radii : Fin (k + 2) → K)
    (h : Nbh k K) (hnew : Nbh.new dev g radii none = .ok h) (out : List (Fin h.g.c.n)) :
    (poissonSample h out).2.length = (poissonSample h out).1.n ∧
    (poissonSample h out).1.B = g.c.B ∧
    ∀ (i : Fin (poissonSample h out).1.n) (p : Fin h.g.c.n),
      (poissonSample h out).2[i.val]? = some p →
        (poissonSample h out).1.pts i = h.g.c.pts p ∧ (poissonSample h out).1.batch i = h.g.c.batch p := by
  obtain ⟨hg, hrad, hs, _⟩ := new_pairs hnew
  refine ⟨by simp [poissonSample], ?_, ?_⟩
  · simp only [poissonSample, hs, Option.getD_none, Grid.sortedCloud]
  · intro i p hp
    have hi : i.val < out.length := i.isLt
    simp only [poissonSample, List.getElem?_map, List.getElem?_eq_getElem hi, Option.map_some,
      Option.some.injEq] at hp
    subst hp
    exact ⟨rfl, rfl⟩

/-! ## C28 -/

/-- **C28, negation.** `poisson_disk_sampling` returns the cell averages and
`cell_average_sampling` a Poisson sample, for every neighbourhood; and a radius or cell
size that is a scalar or has one row always raises. -/
theorem C28_helpers_false :
    (∀ (h : Nbh k K) (c : Cloud (Fin (k + 2) → K)),
      (PoissonDiskSampling h c ↔ c = cellAverage h.g h.sample.B) ∧
      (CellAverageSampling h c ↔ ∃ out, PoissonResult h out ∧ c = (poissonSample h out).1)) ∧
    (∀ r : K, castToPointCloud ⟨[], [r]⟩ = .error .valueError) ∧
    (∀ (rest : List ℕ) (vals : List K), castToPointCloud ⟨1 :: rest, vals⟩ = .error .valueError) ∧
    -- the two are different: the "Poisson sample" of two points at distance 1/2
    ((Nbh.new .gpu (⟨⟨2, ![![0, 0], ![1/2, 0]], ![0, 0], 1⟩, ![1, 1], 1/10⟩ : Grid 2 ℚ) ![1, 1] none).map
      (fun h => List.ofFn (fun i => List.ofFn ((cellAverage h.g h.sample.B).pts i))) =
        .ok [[1 / 4, 0]]) := by
  refine ⟨?_, ?_, ?_, by decide +kernel⟩
  · intro h c
    constructor
    · constructor
      · rintro ⟨⟩; rfl
      · rintro rfl; exact SamplingResult.average
    · constructor
      · intro hc
        unfold CellAverageSampling at hc
        generalize hm : (0 : ℕ) = m at hc
        cases hc with
        | poisson out ho => exact ⟨out, ho, rfl⟩
        | average => simp at hm
      · rintro ⟨out, ho, rfl⟩; exact SamplingResult.poisson out ho
  · intro r; rfl
  · intro rest vals; simp [castToPointCloud]

/-- **C28, what holds.** `sample` maps each documented mode name to the right
algorithm and raises `KeyError` for every other name.  Missing: the two
helper functions, for which the claim is false. -/
theorem C28_sample_modes_partial (h : Nbh k K) (lower : String → String) (mode : String) :
    (lower mode ∈ ["poisson", "poisson disk", "poisson_disk"] →
      ∀ res, SampleResult h lower mode res ↔
        ∃ out, PoissonResult h out ∧ res = .ok (poissonSample h out).1) ∧
    (lower mode ∈ ["average", "cell average", "cell_average"] →
      ∀ res, SampleResult h lower mode res ↔ res = .ok (cellAverage h.g h.sample.B)) ∧
    (lower mode ∉ ["poisson", "poisson disk", "poisson_disk", "average", "cell average",
        "cell_average"] → ∀ res, SampleResult h lower mode res ↔ res = .error .keyError) := by
  have h0 : ∀ c, SamplingResult h 0 c ↔ ∃ out, PoissonResult h out ∧ c = (poissonSample h out).1 :=
    fun c => ((C28_helpers_false (k := k) (K := K)).1 h c).2
  have h1 : ∀ c, SamplingResult h 1 c ↔ c = cellAverage h.g h.sample.B :=
    fun c => ((C28_helpers_false (k := k) (K := K)).1 h c).1
  unfold SampleResult
  refine ⟨?_, ?_, ?_⟩
  · intro hm res
    have : sampleModes (lower mode) = some 0 := by
      simp only [List.mem_cons, List.not_mem_nil, or_false] at hm
      rcases hm with e | e | e <;> rw [e] <;> rfl
    rw [this]
    simp only [h0]
    constructor
    · rintro ⟨c, ⟨out, ho, rfl⟩, rfl⟩; exact ⟨out, ho, rfl⟩
    · rintro ⟨out, ho, rfl⟩; exact ⟨_, ⟨out, ho, rfl⟩, rfl⟩
  · intro hm res
    have : sampleModes (lower mode) = some 1 := by
      simp only [List.mem_cons, List.not_mem_nil, or_false] at hm
      rcases hm with e | e | e <;> rw [e] <;> rfl
    rw [this]
    simp only [h1]
    constructor
    · rintro ⟨c, rfl, rfl⟩; rfl
    · rintro rfl; exact ⟨_, rfl, rfl⟩
  · intro hm res
    have : sampleModes (lower mode) = none := by
      unfold sampleModes
      split <;> simp_all
    rw [this]

/-! ## C29 -/

/-- Specification of cell average sampling: `f` assigns to every input point the
sample of its cell. -/
structure IsCellAverage {D : ℕ} (g : Grid D K) (out : Cloud (Fin D → K)) (f : Fin g.c.n → Fin out.n) :
    Prop where
  /-- every sample belongs to an occupied cell -/
  surj : Function.Surjective f
  /-- one sample per cell and batch element -/
  cells : ∀ i j, f i = f j ↔ g.c.batch i = g.c.batch j ∧
    SameCell g.eps g.c g.cs (g.c.batch i) (g.c.pts i) (g.c.pts j)
  /-- the sample is the mean of the points of the cell -/
  mean : ∀ s d, out.pts s d = (∑ i ∈ Finset.univ.filter (fun i => f i = s), g.c.pts i d) /
    ((Finset.univ.filter (fun i => f i = s)).card : K)
  /-- and carries their batch id -/
  batch : ∀ i, out.batch (f i) = g.c.batch i

/-- **C29.** Cell average sampling returns exactly one sample per occupied cell
and batch element, the mean of its points with their batch id. -/
theorem C29_cell_average {D : ℕ} (g : Grid D K) (B : ℕ) (hv : g.c.Valid) (hcs : ∀ d, 0 < g.cs d)
    (heps : 0 < g.eps) : ∃ f, IsCellAverage g (cellAverage g B) f := by
  have hlen : g.keyList.length = g.c.n := by simp [Grid.keyList]
  have hsorted : g.keyList.Pairwise (· ≥ ·) := by
    unfold Grid.keyList
    rw [List.pairwise_ofFn]
    intro i j hij
    exact sortedKey_antitone g hij.le
  obtain ⟨s1, s2, s3, s4⟩ := newKeys_spec g.keyList hsorted
  have hget : ∀ q : Fin g.c.n, g.keyList.getD q.val 0 = g.sortedKey q := by
    intro q
    rw [List.getD_eq_getElem?_getD, List.getElem?_eq_getElem (by rw [hlen]; exact q.isLt)]
    simp [Grid.keyList]
  have hseg : ∀ q q' : Fin g.c.n, g.segment q = g.segment q' ↔ g.sortedKey q = g.sortedKey q' := by
    intro q q'
    unfold Grid.segment
    rw [s2 q.val q'.val (by rw [hlen]; exact q.isLt) (by rw [hlen]; exact q'.isLt), hget, hget]
  have hlt : ∀ q : Fin g.c.n, g.segment q < (cellAverage g B).n :=
    fun q => s3 q.val (by rw [hlen]; exact q.isLt)
  have hkey := (C13_keys_identify g hv hcs heps).1
  refine ⟨fun i => ⟨g.segment (g.perm.symm i), hlt _⟩, ?_, ?_, ?_, ?_⟩
  · intro s
    obtain ⟨i, hi, he⟩ := s4 s.val s.isLt
    rw [hlen] at hi
    refine ⟨g.perm ⟨i, hi⟩, ?_⟩
    apply Fin.ext
    simp only [Equiv.symm_apply_apply]
    exact he
  · intro i j
    rw [← hkey i j, Fin.ext_iff]
    simp only
    rw [hseg]
    unfold Grid.sortedKey
    simp
  · intro s d
    have hrows : segRows g.segment s.val = (Finset.univ.filter (fun i : Fin g.c.n =>
        (⟨g.segment (g.perm.symm i), hlt _⟩ : Fin (cellAverage g B).n) = s)).map
          g.perm.symm.toEmbedding := by
      ext q
      simp only [mem_segRows, Finset.mem_map_equiv, Equiv.symm_symm, Finset.mem_filter,
        Finset.mem_univ, true_and, Equiv.symm_apply_apply, Fin.ext_iff]
    have hne : (segRows g.segment s.val).card ≠ 0 := by
      obtain ⟨i, hi, he⟩ := s4 s.val s.isLt
      rw [hlen] at hi
      rw [Finset.card_ne_zero]
      exact ⟨⟨i, hi⟩, by rw [mem_segRows]; exact he⟩
    simp only [cellAverage]
    unfold segMean
    rw [max_eq_left (by omega)]
    rw [hrows, Finset.sum_map, Finset.card_map]
    congr 1
    apply Finset.sum_congr rfl
    intro i _
    simp [Grid.sortedPts]
  · intro i
    simp only [cellAverage]
    cases hm : segMin (fun q : Fin g.c.n => q.val) g.segment (g.segment (g.perm.symm i)) with
    | none =>
      rw [segMin_eq_none] at hm
      exact absurd rfl (hm (g.perm.symm i))
    | some q =>
      rw [segMin_eq_some] at hm
      obtain ⟨⟨q', hq', rfl⟩, _⟩ := hm
      simp only [Fin.is_lt, dite_true, Fin.eta]
      rw [hseg] at hq'
      have := ((hkey (g.perm q') (g.perm (g.perm.symm i))).mp hq').1
      simpa [Grid.sortedBatch] using this

/-! ## C30 -/

/-- **C30.** For any output satisfying the specification of C29 (hence for
`cellAverage`): per batch element the count-weighted sum of the samples is the
sum of the points and the counts add up to the number of points; each sample
lies in the cell of its points and in their bounding box; every non-empty
element keeps a sample. -/
theorem C30_mass_and_location {D : ℕ} (g : Grid D K) (hcs : ∀ d, 0 < g.cs d)
    (out : Cloud (Fin D → K)) (f : Fin g.c.n → Fin out.n) (hf : IsCellAverage g out f) :
    (∀ b d, ∑ s ∈ Finset.univ.filter (fun s => out.batch s = b),
        ((Finset.univ.filter (fun i => f i = s)).card : K) * out.pts s d =
      ∑ i ∈ Finset.univ.filter (fun i => g.c.batch i = b), g.c.pts i d) ∧
    (∀ b, ∑ s ∈ Finset.univ.filter (fun s => out.batch s = b),
        (Finset.univ.filter (fun i => f i = s)).card =
      (Finset.univ.filter (fun i => g.c.batch i = b)).card) ∧
    (∀ i d lo, aabbMin g.eps g.c (g.c.batch i) d = some lo →
      ⌊(out.pts (f i) d - lo) / g.cs d⌋ = ⌊(g.c.pts i d - lo) / g.cs d⌋) ∧
    (∀ i d lo hi, aabbMin g.eps g.c (g.c.batch i) d = some lo →
      aabbMax g.eps g.c (g.c.batch i) d = some hi → 0 ≤ g.eps →
      lo ≤ out.pts (f i) d ∧ out.pts (f i) d ≤ hi) ∧
    (∀ b, (∃ i, g.c.batch i = b) → ∃ s, out.batch s = b) := by
  have hcard : ∀ s, (0 : K) < ((Finset.univ.filter (fun i => f i = s)).card : K) := by
    intro s
    obtain ⟨i, hi⟩ := hf.surj s
    have : 0 < (Finset.univ.filter (fun i => f i = s)).card :=
      Finset.card_pos.mpr ⟨i, by simp [hi]⟩
    exact_mod_cast this
  have hfib : ∀ b s, out.batch s = b →
      Finset.univ.filter (fun i => f i = s) =
        (Finset.univ.filter (fun i => g.c.batch i = b)).filter (fun i => f i = s) := by
    intro b s hs
    ext i
    simp only [Finset.mem_filter, Finset.mem_univ, true_and]
    constructor
    · intro h; exact ⟨by rw [← hf.batch i, h]; exact hs, h⟩
    · intro h; exact h.2
  have hmaps : ∀ b, ∀ i ∈ Finset.univ.filter (fun i => g.c.batch i = b),
      f i ∈ Finset.univ.filter (fun s => out.batch s = b) := by
    intro b i hi
    simp only [Finset.mem_filter, Finset.mem_univ, true_and] at hi ⊢
    rw [hf.batch i]; exact hi
  -- bounds on the mean
  have hbound : ∀ (s : Fin out.n) (d : Fin D) (lo hi : K),
      (∀ i, f i = s → lo ≤ g.c.pts i d ∧ g.c.pts i d ≤ hi) → lo ≤ out.pts s d ∧ out.pts s d ≤ hi := by
    intro s d lo hi h
    rw [hf.mean]
    constructor
    · rw [le_div_iff₀ (hcard s)]
      have := Finset.card_nsmul_le_sum (Finset.univ.filter (fun i => f i = s))
        (fun i => g.c.pts i d) lo (fun i hi => (h i (by simpa using hi)).1)
      rw [nsmul_eq_mul] at this
      linarith
    · rw [div_le_iff₀ (hcard s)]
      have := Finset.sum_le_card_nsmul (Finset.univ.filter (fun i => f i = s))
        (fun i => g.c.pts i d) hi (fun i hi => (h i (by simpa using hi)).2)
      rw [nsmul_eq_mul] at this
      linarith
  refine ⟨?_, ?_, ?_, ?_, ?_⟩
  · intro b d
    rw [← Finset.sum_fiberwise_of_maps_to (hmaps b) (fun i => g.c.pts i d)]
    apply Finset.sum_congr rfl
    intro s hs
    simp only [Finset.mem_filter, Finset.mem_univ, true_and] at hs
    rw [hf.mean, mul_div_cancel₀ _ (hcard s).ne', hfib b s hs]
  · intro b
    rw [Finset.card_eq_sum_card_fiberwise (hmaps b)]
    apply Finset.sum_congr rfl
    intro s hs
    simp only [Finset.mem_filter, Finset.mem_univ, true_and] at hs
    rw [hfib b s hs]
  · intro i d lo hlo
    -- strict upper bound: the mean is at most the maximum of the cell's points
    set z := ⌊(g.c.pts i d - lo) / g.cs d⌋ with hz
    have hcell : ∀ j, f j = f i → ⌊(g.c.pts j d - lo) / g.cs d⌋ = z := by
      intro j hj
      have := (hf.cells i j).mp hj.symm
      exact (this.2 d lo hlo).symm
    have hne : (Finset.univ.filter (fun j => f j = f i)).Nonempty := ⟨i, by simp⟩
    obtain ⟨m, hm, hmax⟩ := Finset.exists_max_image _ (fun j => g.c.pts j d) hne
    simp only [Finset.mem_filter, Finset.mem_univ, true_and] at hm hmax
    have hb := hbound (f i) d (lo + z * g.cs d) (g.c.pts m d) (by
      intro j hj
      refine ⟨?_, hmax j hj⟩
      have h1 := Int.floor_le ((g.c.pts j d - lo) / g.cs d)
      rw [hcell j hj, le_div_iff₀ (hcs d)] at h1
      linarith)
    rw [Int.floor_eq_iff]
    have h2 := Int.lt_floor_add_one ((g.c.pts m d - lo) / g.cs d)
    rw [hcell m hm, div_lt_iff₀ (hcs d)] at h2
    constructor
    · rw [le_div_iff₀ (hcs d)]; linarith [hb.1]
    · rw [div_lt_iff₀ (hcs d)]; linarith [hb.2]
  · intro i d lo hi hlo hhi heps
    apply hbound
    intro j hj
    have hjb : g.c.batch j = g.c.batch i := by rw [← hf.batch j, hj, hf.batch i]
    obtain ⟨a, _, hmin, hle⟩ := aabbMin_own g.eps g.c i d
    obtain ⟨a', _, hmax, hle'⟩ := aabbMax_own g.eps g.c i d
    rw [hmin] at hlo
    rw [hmax] at hhi
    simp only [Option.some.injEq] at hlo hhi
    subst hlo hhi
    have h1 := hle j hjb
    have h2 := hle' j hjb
    exact ⟨by linarith, by linarith⟩
  · rintro b ⟨i, rfl⟩
    exact ⟨f i, hf.batch i⟩

/-- C30 for the code: the hypotheses are met by the result of the sampling. -/
theorem C30_cell_average {D : ℕ} (g : Grid D K) (B : ℕ) (hv : g.c.Valid) (hcs : ∀ d, 0 < g.cs d)
    (heps : 0 < g.eps) :
    ∃ f, IsCellAverage g (cellAverage g B) f ∧
      ∀ i d lo hi, aabbMin g.eps g.c (g.c.batch i) d = some lo →
        aabbMax g.eps g.c (g.c.batch i) d = some hi →
        lo ≤ (cellAverage g B).pts (f i) d ∧ (cellAverage g B).pts (f i) d ≤ hi := by
  obtain ⟨f, hf⟩ := C29_cell_average g B hv hcs heps
  exact ⟨f, hf, fun i d lo hi h1 h2 =>
    (C30_mass_and_location g hcs _ f hf).2.2.2.1 i d lo hi h1 h2 heps.le⟩

/-- Non-vacuity of C29/C30: four points in two cells of element 0 and one of
element 1. -/
example : let g : Grid 2 ℚ := ⟨⟨4, ![![0, 0], ![1/2, 0], ![3, 0], ![0, 0]], ![0, 0, 0, 1], 2⟩,
      ![1, 1], 1 / 10⟩
    g.c.Valid ∧ (∀ d, 0 < g.cs d) ∧
    (List.ofFn (fun s => (List.ofFn ((cellAverage g 2).pts s), (cellAverage g 2).batch s))) =
      [([0, 0], 1), ([3, 0], 0), ([1/4, 0], 0)] := by
  refine ⟨by decide, by decide +kernel, by decide +kernel⟩

/-- **C29, negation when the 1e-9 margin is absorbed (`eps = 0`).** On
`badGrid` the point `(2,0)` of element 0 and the point `(0,0)` of element 1 are
averaged into one sample, carrying batch id 0; element 1 loses its only point. -/
theorem C29_cell_average_eps0_false :
    badGrid.c.Valid ∧ (∃ i : Fin 5, badGrid.c.batch i = 1) ∧
    (List.ofFn (fun s => (List.ofFn ((cellAverage badGrid 2).pts s), (cellAverage badGrid 2).batch s))) =
      [([1, 0], 0), ([1/2, 1/2], 0), ([0, 0], 0)] := by
  refine ⟨by decide, ⟨4, by decide⟩, by decide +kernel⟩

/-! ## C65 -/

/-- **C65.** A scalar or one-element argument is used for every dimension; any
other vector is used as it is. -/
theorem C65_broadcast {K : Type*} (numDims : ℕ) :
    (∀ r : K, castToNumDims ⟨[], [r]⟩ numDims = List.replicate numDims r) ∧
    (∀ r : K, castToNumDims ⟨[1], [r]⟩ numDims = List.replicate numDims r) ∧
    (∀ l : List K, l.length ≠ 1 → castToNumDims ⟨[l.length], l⟩ numDims = l) := by
  refine ⟨fun r => by simp [castToNumDims], fun r => by simp [castToNumDims], ?_⟩
  intro l hl
  simp [castToNumDims, hl]

end
end PC
