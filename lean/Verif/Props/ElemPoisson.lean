import Verif.Props.Repeat2
import Verif.Props.Tutorial
import Verif.Props.Nets2

/-!
# C94: Poisson samples of a batch element

Poisson samples are random. What does not depend on the other elements is the set of possible results, and the choices for the elements are
independent of each other: every possible result for one element can occur together with every possible result for the others.
-/

set_option linter.unusedVariables false
set_option linter.unusedSectionVars false

namespace PC

variable {k : ℕ}

theorem poisson_members (h : Nbh k ℝ) (out : List (Fin h.g.c.n)) (b : ℕ) :
    (((poissonSample h out).1.members b).map (poissonSample h out).1.pts) = (out.filter (fun q => h.g.sortedBatch q = b)).map h.g.sortedPts := by
  conv_rhs => rw [← show (List.finRange out.length).map out.get = out by simp]
  rw [List.filter_map, List.map_map]
  rfl

theorem poisson_mix {dev dev' dev'' : Device} (g g' g'' : Grid (k + 2) ℝ) {r : ℝ} {b b' : ℕ} (s : SameElem g.c g''.c b b')
    (s' : ∀ b₂, b₂ ≠ b' → Nonempty (SameElem g'.c g''.c b₂ b₂)) (hn : 0 < g''.c.n)
    {eq eq' eq'' : Bool} {nb : Pairs g.c.n g.sortedCloud.n} {nb' : Pairs g'.c.n g'.sortedCloud.n} {nb'' : Pairs g''.c.n g''.sortedCloud.n}
    (hnew : Nbh.new dev g (fun _ => r) none = .ok ⟨g, fun _ => r, g.sortedCloud, eq, nb⟩)
    (hnew' : Nbh.new dev' g' (fun _ => r) none = .ok ⟨g', fun _ => r, g'.sortedCloud, eq', nb'⟩)
    (hnew'' : Nbh.new dev'' g'' (fun _ => r) none = .ok ⟨g'', fun _ => r, g''.sortedCloud, eq'', nb''⟩)
    (hreg : Regular (⟨g, fun _ => r, g.sortedCloud, eq, nb⟩ : Nbh k ℝ))
    (hreg' : Regular (⟨g', fun _ => r, g'.sortedCloud, eq', nb'⟩ : Nbh k ℝ))
    (hreg'' : Regular (⟨g'', fun _ => r, g''.sortedCloud, eq'', nb''⟩ : Nbh k ℝ)) (out : List (Fin g.c.n)) (out' : List (Fin g'.c.n))
    (hout : PoissonResult (⟨g, fun _ => r, g.sortedCloud, eq, nb⟩ : Nbh k ℝ) out)
    (hout' : PoissonResult (⟨g', fun _ => r, g'.sortedCloud, eq', nb'⟩ : Nbh k ℝ) out') :
    ∃ out'', PoissonResult (⟨g'', fun _ => r, g''.sortedCloud, eq'', nb''⟩ : Nbh k ℝ) out'' ∧
      (out''.filter (fun q => g''.sortedBatch q = b')).map g''.sortedPts = (out.filter (fun q => g.sortedBatch q = b)).map g.sortedPts ∧
      ∀ b₂, b₂ ≠ b' → (out''.filter (fun q => g''.sortedBatch q = b₂)).map g''.sortedPts =
        (out'.filter (fun q => g'.sortedBatch q = b₂)).map g'.sortedPts := by
  obtain ⟨o1, o2⟩ := (C110_poisson_results dev _ _ _ hnew hreg _).1 hout
  obtain ⟨p1, p2⟩ := (C110_poisson_results dev' _ _ _ hnew' hreg' _).1 hout'
  have hφ : ∀ q : Fin g.c.n, ∃ q'' : Fin g''.c.n, g.sortedBatch q = b → g''.sortedBatch q'' = b' ∧ g''.sortedPts q'' = g.sortedPts q := by
    intro q
    by_cases e : g.sortedBatch q = b
    · refine ⟨g''.perm.symm (s.e ⟨g.perm q, e⟩), fun _ => ⟨?_, ?_⟩⟩
      · exact (congrArg g''.c.batch (Equiv.apply_symm_apply g''.perm _)).trans (s.e ⟨g.perm q, e⟩).2
      · exact (congrArg g''.c.pts (Equiv.apply_symm_apply g''.perm _)).trans (s.pts ⟨g.perm q, e⟩)
    · exact ⟨⟨0, hn⟩, fun h => absurd h e⟩
  have hψ : ∀ q : Fin g'.c.n, ∃ q'' : Fin g''.c.n, g'.sortedBatch q ≠ b' → g''.sortedBatch q'' = g'.sortedBatch q ∧ g''.sortedPts q'' = g'.sortedPts q := by
    intro q
    by_cases e : g'.sortedBatch q ≠ b'
    · obtain ⟨s2⟩ := s' _ e
      refine ⟨g''.perm.symm (s2.e ⟨g'.perm q, rfl⟩), fun _ => ⟨?_, ?_⟩⟩
      · exact (congrArg g''.c.batch (Equiv.apply_symm_apply g''.perm _)).trans (s2.e ⟨g'.perm q, rfl⟩).2
      · exact (congrArg g''.c.pts (Equiv.apply_symm_apply g''.perm _)).trans (s2.pts ⟨g'.perm q, rfl⟩)
    · exact ⟨⟨0, hn⟩, fun h => absurd h e⟩
  choose φ hφ using hφ
  choose ψ hψ using hψ
  have hA : ∀ x, x ∈ out.filter (fun q => g.sortedBatch q = b) → g.sortedBatch x = b := fun x hx => by simpa using (List.mem_filter.1 hx).2
  have hB : ∀ x, x ∈ out'.filter (fun q => g'.sortedBatch q ≠ b') → g'.sortedBatch x ≠ b' := fun x hx => by simpa using (List.mem_filter.1 hx).2
  refine ⟨(out.filter (fun q => g.sortedBatch q = b)).map φ ++ (out'.filter (fun q => g'.sortedBatch q ≠ b')).map ψ, ?_, ?_, ?_⟩
  · refine (C110_poisson_results dev'' _ _ _ hnew'' hreg'' _).2 ⟨?_, ?_⟩
    · rw [List.pairwise_append]
      refine ⟨?_, ?_, ?_⟩
      · rw [List.pairwise_map]
        refine (o1.filter _).imp_of_mem fun {x y} hx hy hxy => ?_
        rintro ⟨q1, q2⟩
        refine hxy ⟨(hA y hy).trans (hA x hx).symm, ?_⟩
        have q2 : normLt (fun d => g''.sortedPts (φ y) d - g''.sortedPts (φ x) d) r := q2
        rwa [(hφ y (hA y hy)).2, (hφ x (hA x hx)).2] at q2
      · rw [List.pairwise_map]
        refine (p1.filter _).imp_of_mem fun {x y} hx hy hxy => ?_
        rintro ⟨q1, q2⟩
        have q1 : g''.sortedBatch (ψ y) = g''.sortedBatch (ψ x) := q1
        rw [(hψ y (hB y hy)).1, (hψ x (hB x hx)).1] at q1
        refine hxy ⟨q1, ?_⟩
        have q2 : normLt (fun d => g''.sortedPts (ψ y) d - g''.sortedPts (ψ x) d) r := q2
        rwa [(hψ y (hB y hy)).2, (hψ x (hB x hx)).2] at q2
      · intro x hx y hy
        obtain ⟨x, hx', rfl⟩ := List.mem_map.1 hx
        clear hx
        have hx := hx'
        obtain ⟨y, hy', rfl⟩ := List.mem_map.1 hy
        clear hy
        have hy := hy'
        rintro ⟨q1, _⟩
        have q1 : g''.sortedBatch (ψ y) = g''.sortedBatch (φ x) := q1
        rw [(hφ x (hA x hx)).1, (hψ y (hB y hy)).1] at q1
        exact hB y hy q1
    · intro q
      by_cases e : g''.sortedBatch q = b'
      · have hi := s.symm.pts ⟨g''.perm q, e⟩
        generalize s.symm.e ⟨g''.perm q, e⟩ = ii at hi
        obtain ⟨i, hib⟩ := ii
        obtain ⟨u, hu, u1, u2⟩ := o2 (g.perm.symm i)
        have e1 : g.sortedBatch (g.perm.symm i) = b := (congrArg g.c.batch (Equiv.apply_symm_apply g.perm i)).trans hib
        have e2 : g.sortedPts (g.perm.symm i) = g''.sortedPts q := (congrArg g.c.pts (Equiv.apply_symm_apply g.perm i)).trans hi
        have u1 : g.sortedBatch (g.perm.symm i) = g.sortedBatch u := u1
        have u2 : normLt (fun d => g.sortedPts (g.perm.symm i) d - g.sortedPts u d) r := u2
        have hub : g.sortedBatch u = b := u1.symm.trans e1
        refine ⟨φ u, List.mem_append_left _ (List.mem_map_of_mem (List.mem_filter.2 ⟨hu, by simpa using hub⟩)), ?_, ?_⟩
        · exact e.trans (hφ u hub).1.symm
        · show normLt (fun d => g''.sortedPts q d - g''.sortedPts (φ u) d) r
          rw [(hφ u hub).2, ← e2]
          exact u2
      · obtain ⟨s2⟩ := s' _ e
        have hi := s2.symm.pts ⟨g''.perm q, rfl⟩
        generalize s2.symm.e ⟨g''.perm q, rfl⟩ = ii at hi
        obtain ⟨i, hib⟩ := ii
        obtain ⟨u, hu, u1, u2⟩ := p2 (g'.perm.symm i)
        have e1 : g'.sortedBatch (g'.perm.symm i) = g''.sortedBatch q := (congrArg g'.c.batch (Equiv.apply_symm_apply g'.perm i)).trans hib
        have e2 : g'.sortedPts (g'.perm.symm i) = g''.sortedPts q := (congrArg g'.c.pts (Equiv.apply_symm_apply g'.perm i)).trans hi
        have u1 : g'.sortedBatch (g'.perm.symm i) = g'.sortedBatch u := u1
        have u2 : normLt (fun d => g'.sortedPts (g'.perm.symm i) d - g'.sortedPts u d) r := u2
        have hub : g'.sortedBatch u = g''.sortedBatch q := u1.symm.trans e1
        have hub' : g'.sortedBatch u ≠ b' := by rw [hub]; exact e
        refine ⟨ψ u, List.mem_append_right _ (List.mem_map_of_mem (List.mem_filter.2 ⟨hu, by simpa using hub'⟩)), ?_, ?_⟩
        · exact hub.symm.trans (hψ u hub').1.symm
        · show normLt (fun d => g''.sortedPts q d - g''.sortedPts (ψ u) d) r
          rw [(hψ u hub').2, ← e2]
          exact u2
  · rw [List.filter_append, List.map_append]
    have h1 : ((out.filter (fun q => g.sortedBatch q = b)).map φ).filter (fun q => g''.sortedBatch q = b') =
        (out.filter (fun q => g.sortedBatch q = b)).map φ := by
      rw [List.filter_eq_self]
      intro x hx
      obtain ⟨x, hx', rfl⟩ := List.mem_map.1 hx
      clear hx
      have hx := hx'
      simpa using (hφ x (hA x hx)).1
    have h2 : ((out'.filter (fun q => g'.sortedBatch q ≠ b')).map ψ).filter (fun q => g''.sortedBatch q = b') = [] := by
      rw [List.filter_eq_nil_iff]
      intro x hx
      obtain ⟨x, hx', rfl⟩ := List.mem_map.1 hx
      clear hx
      have hx := hx'
      have := hB x hx
      simp only [decide_eq_true_eq]
      rwa [(hψ x this).1]
    rw [h1, h2, List.map_nil, List.append_nil, List.map_map]
    refine List.map_congr_left fun x hx => ?_
    exact (hφ x (hA x hx)).2
  · intro b₂ hb₂
    rw [List.filter_append, List.map_append]
    have h1 : ((out.filter (fun q => g.sortedBatch q = b)).map φ).filter (fun q => g''.sortedBatch q = b₂) = [] := by
      rw [List.filter_eq_nil_iff]
      intro x hx
      obtain ⟨x, hx', rfl⟩ := List.mem_map.1 hx
      clear hx
      have hx := hx'
      simp only [decide_eq_true_eq]
      rw [(hφ x (hA x hx)).1]
      exact fun h => hb₂ h.symm
    have h2 : ((out'.filter (fun q => g'.sortedBatch q ≠ b')).map ψ).filter (fun q => g''.sortedBatch q = b₂) =
        (out'.filter (fun q => g'.sortedBatch q = b₂)).map ψ := by
      rw [List.filter_map, List.filter_filter]
      congr 1
      refine List.filter_congr fun x _ => ?_
      by_cases e : g'.sortedBatch x = b'
      · simp only [Function.comp, e, ne_eq, not_true, decide_false, Bool.and_false]
        exact (decide_eq_false (fun h => hb₂ h.symm)).symm
      · simp [Function.comp, (hψ x e).1, e]
    rw [h1, h2, List.map_nil, List.nil_append, List.map_map]
    refine List.map_congr_left fun x hx => ?_
    have hx : g'.sortedBatch x = b₂ := by simpa using (List.mem_filter.1 hx).2
    exact (hψ x (by rw [hx]; exact hb₂)).2

/-- What a cloud must look like for `poisson_mix`. -/
theorem regular_of_new {dev : Device} {c : Cloud (Fin (k + 2) → ℝ)} (hv : c.Valid) {r eps : ℝ} (hr : 0 < r) (heps : 0 < eps) {h : Nbh k ℝ}
    (hnew : Nbh.new dev (⟨c, fun _ => r, eps⟩ : Grid (k + 2) ℝ) (fun _ => r) none = .ok h) : Regular h := by
  obtain ⟨e1, e2, e3, _, _⟩ := new_pairs hnew
  refine ⟨?_, ?_, ?_, ?_, ?_⟩
  · rw [e1]; exact hv
  · rw [e2]; exact hr
  · intro d; rw [e2]
  · rw [e1, e2]
  · rw [e1]; exact heps

theorem poisson_mix_clouds {dev dev' dev'' : Device} {c c' c'' : Cloud (Fin (k + 2) → ℝ)} {b b' : ℕ} (s : SameElem c c'' b b')
    (s' : ∀ b₂, b₂ ≠ b' → Nonempty (SameElem c' c'' b₂ b₂)) (hv : c.Valid) (hv' : c'.Valid) (hv'' : c''.Valid) (hn : 0 < c''.n)
    {r eps eps' eps'' : ℝ} (hr : 0 < r) (heps : 0 < eps) (heps' : 0 < eps') (heps'' : 0 < eps'') {h h' h'' : Nbh k ℝ}
    (hnew : Nbh.new dev (⟨c, fun _ => r, eps⟩ : Grid (k + 2) ℝ) (fun _ => r) none = .ok h)
    (hnew' : Nbh.new dev' (⟨c', fun _ => r, eps'⟩ : Grid (k + 2) ℝ) (fun _ => r) none = .ok h')
    (hnew'' : Nbh.new dev'' (⟨c'', fun _ => r, eps''⟩ : Grid (k + 2) ℝ) (fun _ => r) none = .ok h'') {t t' : Cloud (Fin (k + 2) → ℝ)}
    (ht : SamplingResult h 0 t) (ht' : SamplingResult h' 0 t') :
    ∃ u, SamplingResult h'' 0 u ∧ Nonempty (SameElem t u b b') ∧ ∀ b₂, b₂ ≠ b' → Nonempty (SameElem t' u b₂ b₂) := by
  have hreg := regular_of_new hv hr heps hnew
  have hreg' := regular_of_new hv' hr heps' hnew'
  have hreg'' := regular_of_new hv'' hr heps'' hnew''
  obtain ⟨e1, e2, e3, _, _⟩ := new_pairs hnew
  obtain ⟨e1', e2', e3', _, _⟩ := new_pairs hnew'
  obtain ⟨e1'', e2'', e3'', _, _⟩ := new_pairs hnew''
  obtain ⟨g, rad, smp, eq, nb⟩ := h
  obtain ⟨g', rad', smp', eq', nb'⟩ := h'
  obtain ⟨g'', rad'', smp'', eq'', nb''⟩ := h''
  simp only [Option.getD_none] at e1 e2 e3 e1' e2' e3' e1'' e2'' e3''
  subst e1 e2 e3 e1' e2' e3' e1'' e2'' e3''
  cases ht with
  | poisson out hout =>
    cases ht' with
    | poisson out' hout' =>
      obtain ⟨out'', q1, q2, q3⟩ := poisson_mix _ _ _ s s' hn hnew hnew' hnew'' hreg hreg' hreg'' out out' hout hout'
      refine ⟨_, .poisson out'' q1, SameElem.ofPerm ?_, fun b₂ hb₂ => SameElem.ofPerm ?_⟩
      · rw [poisson_members, poisson_members]
        exact List.Perm.of_eq q2.symm
      · rw [poisson_members, poisson_members]
        exact List.Perm.of_eq (q3 b₂ hb₂).symm

/-- Every element of a cloud is the same as itself. -/
def SameElem.self {D : ℕ} (c : Cloud (Fin D → ℝ)) (b : ℕ) : SameElem c c b b := ⟨Equiv.refl _, fun _ => rfl⟩

/-- **C94, Poisson sampling**: let two clouds share an element. Whatever points can be kept for it in one cloud can be kept for it in the
other, whatever is kept there for the other elements. -/
theorem C94_poisson {dev dev' : Device} {c c' : Cloud (Fin (k + 2) → ℝ)} {b b' : ℕ} (s : SameElem c c' b b') (hv : c.Valid) (hv' : c'.Valid)
    (hn : 0 < c'.n) {r eps eps' : ℝ} (hr : 0 < r) (heps : 0 < eps) (heps' : 0 < eps') {h h' : Nbh k ℝ}
    (hnew : Nbh.new dev (⟨c, fun _ => r, eps⟩ : Grid (k + 2) ℝ) (fun _ => r) none = .ok h)
    (hnew' : Nbh.new dev' (⟨c', fun _ => r, eps'⟩ : Grid (k + 2) ℝ) (fun _ => r) none = .ok h') {t t' : Cloud (Fin (k + 2) → ℝ)}
    (ht : SamplingResult h 0 t) (ht' : SamplingResult h' 0 t') :
    ∃ u, SamplingResult h' 0 u ∧ Nonempty (SameElem t u b b') ∧ ∀ b₂, b₂ ≠ b' → Nonempty (SameElem t' u b₂ b₂) :=
  poisson_mix_clouds s (fun b₂ _ => ⟨SameElem.self _ b₂⟩) hv hv' hv' hn hr heps heps' heps' hnew hnew' hnew' ht ht'

/-- Two shapes, with two points and one point. -/
def exTwoShapes : Cloud (Fin 2 → ℝ) := ⟨3, fun i _ => (i.val : ℝ), fun i => i.val / 2, 2⟩

/-- The hypotheses of `C94_poisson` hold for this batch and its first shape alone, with samples that exist. -/
example : ∃ (h h' : Nbh 0 ℝ) (t t' : Cloud (Fin 2 → ℝ)),
    Nbh.new .gpu (⟨exTwoShapes, fun _ => 1, 1⟩ : Grid 2 ℝ) (fun _ => 1) none = .ok h ∧
    Nbh.new .gpu (⟨exTwoShapes.element 0, fun _ => 1, 1⟩ : Grid 2 ℝ) (fun _ => 1) none = .ok h' ∧
    SamplingResult h 0 t ∧ SamplingResult h' 0 t' ∧ Nonempty (SameElem exTwoShapes (exTwoShapes.element 0) 0 0) := by
  have hn' : 0 < (exTwoShapes.element 0).n := by decide
  have hv : exTwoShapes.Valid := by
    intro i
    show i.val / 2 < 2
    have : i.val < 3 := i.2
    omega
  have hv' : (exTwoShapes.element 0).Valid := fun _ => Nat.one_pos
  obtain ⟨h, e⟩ := nbhNew_gpu (k := 0) exTwoShapes hv (by decide) one_pos (eps := 1) one_pos
  obtain ⟨h', e'⟩ := nbhNew_gpu (k := 0) (exTwoShapes.element 0) hv' hn' one_pos (eps := 1) one_pos
  obtain ⟨out, ho⟩ := (C24_poisson_terminates .gpu _ _ h e hv rfl (fun _ => one_pos) one_pos).2.2.2
  obtain ⟨out', ho'⟩ := (C24_poisson_terminates .gpu _ _ h' e' hv' rfl (fun _ => one_pos) one_pos).2.2.2
  exact ⟨h, h', _, _, e, e', .poisson out ho, .poisson out' ho', ⟨exTwoShapes.sameElement 0⟩⟩

/-! ### Hierarchies -/

theorem levelStep_mix {dev dev' : Device} {eps : ℝ} (heps : 0 < eps) {lower : String → String} {mode : String}
    (hmode : lower mode ∈ ["poisson", "poisson disk", "poisson_disk"]) {bs bs' bs'' : Option (List ℕ)}
    {o o' o'' p p' : CloudObj (Fin (k + 2) → ℝ)} {a : ℝ} (ha : 0 < a) {cs cs' : Fin (k + 2) → ℝ} {h h' : Nbh k ℝ}
    (hv : o.c.Valid) (hv' : o'.c.Valid) (hv'' : o''.c.Valid) (hn : 0 < o''.c.n) (hbs : ∀ sh, bs'' = some sh → sh.prod = o''.c.B)
    {b b' : ℕ} (s : SameElem o.c o''.c b b') (s' : ∀ b₂, b₂ ≠ b' → Nonempty (SameElem o'.c o''.c b₂ b₂))
    (hst : LevelStep dev eps lower mode bs o (oneSize a) (.ok (p, cs, h)))
    (hst' : LevelStep dev' eps lower mode bs' o' (oneSize a) (.ok (p', cs', h'))) :
    ∃ p'' cs'' h'', LevelStep .gpu eps lower mode bs'' o'' (oneSize a) (.ok (p'', cs'', h'')) ∧ (∀ d, 0 < cs'' d) ∧
      Nonempty (SameElem p.c p''.c b b') ∧ ∀ b₂, b₂ ≠ b' → Nonempty (SameElem p'.c p''.c b₂ b₂) := by
  obtain ⟨l0, hl0, hvec⟩ := completeCellSizes_one (k := k) a
  obtain ⟨h'', hnew''⟩ := nbhNew_gpu o''.c hv'' hn ha heps
  cases hst with
  | ok l h c hl hnew hsr hb =>
    rw [hl0] at hl
    cases hl
    rw [hvec] at hnew
    cases hst' with
    | ok l' h' c' hl' hnew' hsr' hb' =>
      rw [hl0] at hl'
      cases hl'
      rw [hvec] at hnew'
      have key : ∀ {h : Nbh k ℝ} {c : Cloud (Fin (k + 2) → ℝ)}, SampleResult h lower mode (.ok c) ↔ SamplingResult h 0 c := by
        intro h c
        rw [(C28_sample_modes_partial h lower mode).1 hmode]
        constructor
        · rintro ⟨out, ho, hc⟩
          have hc := Except.ok.inj hc
          subst hc
          exact .poisson out ho
        · intro hs
          cases hs with
          | poisson out ho => exact ⟨out, ho, rfl⟩
      obtain ⟨u, hu, u1, u2⟩ := poisson_mix_clouds s s' hv hv' hv'' hn ha heps heps heps hnew hnew' hnew'' (key.1 hsr) (key.1 hsr')
      have hB : u.B = o''.c.B := by
        obtain ⟨e1, _, e3, _, _⟩ := new_pairs hnew''
        cases hu with
        | poisson out ho =>
          show h''.sample.B = _
          rw [e3]
          rfl
      have hok := setBatchShape_ok (bs := bs'') (c := u) (fun sh e => (hbs sh e).trans hB.symm)
      refine ⟨_, _, _, LevelStep.ok (o := o'') l0 h'' u hl0 (by rw [hvec]; exact hnew'') (key.2 hu) hok, ?_, ?_, ?_⟩
      · intro d
        rw [hvec]
        exact ha
      · rw [setBatchShape_c, setBatchShape_c]
        exact u1
      · intro b₂ hb₂
        rw [setBatchShape_c, setBatchShape_c]
        exact u2 b₂ hb₂

theorem levelStep_pos {dev : Device} {eps : ℝ} {lower : String → String} {mode : String} {bs : Option (List ℕ)}
    {o p : CloudObj (Fin (k + 2) → ℝ)} {a : ℝ} (ha : 0 < a) {cs : Fin (k + 2) → ℝ} {h : Nbh k ℝ}
    (hst : LevelStep dev eps lower mode bs o (oneSize a) (.ok (p, cs, h))) : ∀ d, 0 < cs d := by
  obtain ⟨l0, hl0, hvec⟩ := completeCellSizes_one (k := k) a
  cases hst with
  | ok l h c hl hnew hsr hb =>
    rw [hl0] at hl
    cases hl
    intro d
    rw [hvec]
    exact ha

theorem levels_mix {dev dev' : Device} {eps : ℝ} (heps : 0 < eps) {lower : String → String} {mode : String}
    (hmode : lower mode ∈ ["poisson", "poisson disk", "poisson_disk"]) {bs bs' bs'' : Option (List ℕ)} {b b' : ℕ} (as : List ℝ)
    (ha : ∀ a ∈ as, 0 < a) : ∀ (o o' o'' : CloudObj (Fin (k + 2) → ℝ)), o.c.Valid → o'.c.Valid → o''.c.Valid → 0 < o''.c.n →
    (∀ sh, bs'' = some sh → sh.prod = o''.c.B) → Nonempty (SameElem o.c o''.c b b') →
    (∀ b₂, b₂ ≠ b' → Nonempty (SameElem o'.c o''.c b₂ b₂)) → ∀ ls ls' : List (CloudObj (Fin (k + 2) → ℝ) × (Fin (k + 2) → ℝ) × Nbh k ℝ),
    Levels dev eps lower mode bs o (as.map oneSize) (.ok ls) → Levels dev' eps lower mode bs' o' (as.map oneSize) (.ok ls') →
    ∃ ls'' : List (CloudObj (Fin (k + 2) → ℝ) × (Fin (k + 2) → ℝ) × Nbh k ℝ), Levels .gpu eps lower mode bs'' o'' (as.map oneSize) (.ok ls'') ∧
      List.Forall₂ (fun p p'' : CloudObj (Fin (k + 2) → ℝ) => Nonempty (SameElem p.c p''.c b b')) (ls.map (·.1)) (ls''.map (·.1)) ∧
      ∀ b₂, b₂ ≠ b' → List.Forall₂ (fun p p'' : CloudObj (Fin (k + 2) → ℝ) => Nonempty (SameElem p.c p''.c b₂ b₂)) (ls'.map (·.1)) (ls''.map (·.1)) := by
  induction as with
  | nil =>
    intro o o' o'' hv hv' hv'' hn hbs s s' ls ls' h h'
    cases h
    cases h'
    exact ⟨[], .nil _, .nil, fun _ _ => .nil⟩
  | cons a as ih =>
    intro o o' o'' hv hv' hv'' hn hbs s s' ls ls' h h'
    have ha0 : 0 < a := ha a (by simp)
    obtain ⟨s⟩ := s
    cases h with
    | cons _ _ _ p cs nh rest hst hl =>
      cases h' with
      | cons _ _ _ p' cs' nh' rest' hst' hl' =>
        obtain ⟨p'', cs'', nh'', hst'', hc'', t, t'⟩ := levelStep_mix heps hmode ha0 hv hv' hv'' hn hbs s s' hst hst'
        have v := (levelStep_spec heps hv hst (levelStep_pos ha0 hst)).1
        have v' := (levelStep_spec heps hv' hst' (levelStep_pos ha0 hst')).1
        have v'' := (levelStep_spec heps hv'' hst'' hc'').1
        have hn'' : 0 < p''.c.n := by
          have h1 := v''.keeps (o''.c.batch ⟨0, hn⟩) (members_pos _ |>.2 ⟨⟨0, hn⟩, rfl⟩)
          obtain ⟨i, _⟩ := (members_pos _).1 h1
          exact i.pos
        obtain ⟨ls'', q1, q2, q3⟩ := ih (fun x hx => ha x (by simp [hx])) p p' p'' v.valid v'.valid v''.valid hn''
          (fun sh e => (hbs sh e).trans v''.batchSize.symm) t t' rest rest' hl hl'
        exact ⟨_, Levels.cons _ _ _ _ _ _ _ hst'' q1, .cons t q2, fun b₂ hb₂ => .cons (t' b₂ hb₂) (q3 b₂ hb₂)⟩

/-- **C94, hierarchies of Poisson samples**: let two clouds share an element. Whatever levels are possible for it in one hierarchy are possible for
it in the other, together with whatever is possible there for the other elements. -/
theorem C94_poisson_hierarchy {dev dev' : Device} {eps : ℝ} (heps : 0 < eps) {lower : String → String} {mode : String}
    (hmode : lower mode ∈ ["poisson", "poisson disk", "poisson_disk"]) {b b' : ℕ} {as : List ℝ} (ha : ∀ a ∈ as, 0 < a)
    {o o' : CloudObj (Fin (k + 2) → ℝ)} (hv : o.c.Valid) (hv' : o'.c.Valid) (hn : 0 < o'.c.n)
    (hbs : ∀ sh, o'.batchShape = some sh → sh.prod = o'.c.B) (s : SameElem o.c o'.c b b') {H H' : Hier k ℝ}
    (hH : HierNew dev eps lower mode o (as.map oneSize) (.ok H)) (hH' : HierNew dev' eps lower mode o' (as.map oneSize) (.ok H')) :
    ∃ U, HierNew .gpu eps lower mode o' (as.map oneSize) (.ok U) ∧
      List.Forall₂ (fun p q : CloudObj (Fin (k + 2) → ℝ) => Nonempty (SameElem p.c q.c b b')) H.clouds U.clouds ∧
      ∀ b₂, b₂ ≠ b' → List.Forall₂ (fun p q : CloudObj (Fin (k + 2) → ℝ) => Nonempty (SameElem p.c q.c b₂ b₂)) H'.clouds U.clouds := by
  rcases hH with ⟨ls, hl, he⟩ | ⟨e, _, he⟩
  swap
  · cases he
  rcases hH' with ⟨ls', hl', he'⟩ | ⟨e, _, he'⟩
  swap
  · cases he'
  have he := Except.ok.inj he
  have he' := Except.ok.inj he'
  subst he he'
  obtain ⟨ls'', q1, q2, q3⟩ := levels_mix heps hmode as ha o o' o' hv hv' hv' hn hbs ⟨s⟩ (fun b₂ _ => ⟨SameElem.self _ b₂⟩) ls ls' hl hl'
  exact ⟨_, Or.inl ⟨ls'', q1, rfl⟩, .cons ⟨s⟩ q2, fun b₂ hb₂ => .cons ⟨SameElem.self _ b₂⟩ (q3 b₂ hb₂)⟩

end PC
