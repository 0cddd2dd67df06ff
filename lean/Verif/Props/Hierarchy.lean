import Verif.Hierarchy
import Verif.Props.Sampling
import Verif.Props.PointCloud2

/-!
# Properties C31, C32, C68–C71: point hierarchies
-/

set_option linter.unusedVariables false
set_option linter.unusedSectionVars false

namespace PC

section
variable {K : Type*} [Field K] [LinearOrder K] [IsStrictOrderedRing K] [FloorRing K] {k : ℕ}

/-! ## C31 -/

/-- Number of points of batch element `b`. -/
def Cloud.countIn {α : Type*} (c : Cloud α) (b : ℕ) : ℕ :=
  (Finset.univ.filter (fun i : Fin c.n => c.batch i = b)).card

/-- Specification of one coarsening step from `c` to `c'`. -/
structure Coarsens {α : Type*} (c c' : Cloud α) : Prop where
  batchSize : c'.B = c.B
  valid : c'.Valid
  shrinks : ∀ b, c'.countIn b ≤ c.countIn b
  keeps : ∀ b, 0 < c.countIn b → 0 < c'.countIn b

/-- `c'` consists of different points of `c` with their batch ids. -/
def SubCloud {α : Type*} (c c' : Cloud α) : Prop :=
  ∃ f : Fin c'.n → Fin c.n, Function.Injective f ∧
    ∀ i, c'.pts i = c.pts (f i) ∧ c'.batch i = c.batch (f i)

theorem coarsens_of_sub {α : Type*} {c c' : Cloud α} (hv : c.Valid) (hB : c'.B = c.B)
    (hsub : SubCloud c c') (hk : ∀ p, ∃ i, c'.batch i = c.batch p) : Coarsens c c' := by
  obtain ⟨f, hf, hp⟩ := hsub
  refine ⟨hB, ?_, ?_, ?_⟩
  · intro i; rw [(hp i).2, hB]; exact hv _
  · intro b
    unfold Cloud.countIn
    rw [← Finset.card_map ⟨f, hf⟩]
    apply Finset.card_le_card
    intro j
    simp only [Finset.mem_map, Finset.mem_filter, Finset.mem_univ, true_and,
      Function.Embedding.coeFn_mk]
    rintro ⟨i, hi, rfl⟩
    rw [← (hp i).2]; exact hi
  · intro b hb
    obtain ⟨p, hp⟩ := Finset.card_pos.mp hb
    simp only [Finset.mem_filter, Finset.mem_univ, true_and] at hp
    obtain ⟨i, hi⟩ := hk p
    exact Finset.card_pos.mpr ⟨i, by simp [hi, hp]⟩

theorem poisson_coarsens {dev : Device} {g : Grid (k + 2) K} {h : Nbh k K}
    (hnew : Nbh.new dev g g.cs none = .ok h) (hv : g.c.Valid) (hpos : ∀ d, 0 < g.cs d)
    (heps : 0 < g.eps) {out : List (Fin h.g.c.n)} (hout : PoissonResult h out) :
    SubCloud g.c (poissonSample h out).1 ∧ Coarsens g.c (poissonSample h out).1 := by
  obtain ⟨hself, hbatch⟩ := slice_self_weak hnew hv rfl hpos heps
  obtain ⟨i1, i2, i3, i4⟩ := poisson_invariant_weak hself hbatch hout
  have hB := (C27_sample_ids dev g g.cs h hnew out).2.1
  have hg := (new_pairs hnew).1
  subst hg
  have hsub : SubCloud h.g.c (poissonSample h out).1 := by
    refine ⟨fun i => h.g.perm (out.get i), ?_, fun i => ⟨rfl, rfl⟩⟩
    intro i j hij
    exact List.nodup_iff_injective_get.mp i1 (h.g.perm.injective hij)
  refine ⟨hsub, coarsens_of_sub hv hB hsub ?_⟩
  intro p
  obtain ⟨c, hc, hb⟩ := i3 (h.g.perm.symm p) (by simp)
  obtain ⟨i, hi⟩ := List.mem_iff_get.mp hc
  refine ⟨i, ?_⟩
  simp only [poissonSample]
  rw [hi, ← hb]
  simp [Grid.sortedBatch]

theorem average_coarsens {D : ℕ} (g : Grid D K) (hv : g.c.Valid) (hpos : ∀ d, 0 < g.cs d)
    (heps : 0 < g.eps) : Coarsens g.c (cellAverage g g.c.B) := by
  obtain ⟨f, hf⟩ := C29_cell_average g g.c.B hv hpos heps
  refine ⟨rfl, ?_, ?_, ?_⟩
  · intro s
    obtain ⟨i, rfl⟩ := hf.surj s
    rw [hf.batch]; exact hv i
  · intro b
    unfold Cloud.countIn
    apply le_trans (Finset.card_le_card _) (Finset.card_image_le (f := f))
    intro s
    obtain ⟨i, rfl⟩ := hf.surj s
    simp only [Finset.mem_filter, Finset.mem_univ, true_and, Finset.mem_image]
    intro h
    exact ⟨i, by rw [← hf.batch]; exact h, rfl⟩
  · intro b hb
    obtain ⟨p, hp⟩ := Finset.card_pos.mp hb
    simp only [Finset.mem_filter, Finset.mem_univ, true_and] at hp
    exact Finset.card_pos.mpr ⟨f p, by simp [hf.batch, hp]⟩

theorem setBatchShape_c {α : Type*} (o : CloudObj α) (s : Option (List ℕ)) :
    (o.setBatchShape s).2.c = o.c := by
  unfold CloudObj.setBatchShape
  dsimp only
  repeat' split
  all_goals rfl

/-- One level. -/
theorem levelStep_spec {dev : Device} {eps : K} (heps : 0 < eps) {lower : String → String}
    {mode : String} {bs : Option (List ℕ)} {o o' : CloudObj (Fin (k + 2) → K)} {a : Arg K}
    {cs : Fin (k + 2) → K} {h : Nbh k K} (hv : o.c.Valid)
    (hst : LevelStep dev eps lower mode bs o a (.ok (o', cs, h)))
    (hpos : ∀ d, 0 < cs d) :
    Coarsens o.c o'.c ∧
    (lower mode ∈ ["poisson", "poisson disk", "poisson_disk"] → SubCloud o.c o'.c) := by
  cases hst with
  | ok l h c hl hnew hs hb =>
    rw [setBatchShape_c]
    simp only [CloudObj.ofCloud]
    have hsel := C28_sample_modes_partial h lower mode
    by_cases hp : lower mode ∈ ["poisson", "poisson disk", "poisson_disk"]
    · obtain ⟨out, ho, hc⟩ := (hsel.1 hp _).mp hs
      simp only [Except.ok.injEq] at hc
      subst hc
      have := poisson_coarsens (g := ⟨o.c, vecOf l, eps⟩) hnew hv hpos heps ho
      exact ⟨this.2, fun _ => this.1⟩
    · refine ⟨?_, fun h => absurd h hp⟩
      by_cases ha : lower mode ∈ ["average", "cell average", "cell_average"]
      · have hc := (hsel.2.1 ha _).mp hs
        simp only [Except.ok.injEq] at hc
        subst hc
        obtain ⟨e1, _, e3, _⟩ := new_pairs hnew
        have e5 : h.sample.B = o.c.B := by rw [e3]; rfl
        rw [e5, e1]
        exact average_coarsens ⟨o.c, vecOf l, eps⟩ hv hpos heps
      · have hc := (hsel.2.2 (by
          simp only [List.mem_cons, List.not_mem_nil, or_false, not_or] at hp ha ⊢
          tauto) _).mp hs
        simp at hc

/-- **C31.** A hierarchy built from `m` cell sizes (all positive) has `m + 1`
levels, the first being the given cloud; each level coarsens its predecessor:
same batch size, valid batch ids, per batch element never more points, and at
least one where there was one; with Poisson sampling each level consists of
different points of its predecessor.  (The dimension is the type.)  For all
random choices. -/
theorem C31_hierarchy_well_formed (dev : Device) (eps : K) (heps : 0 < eps)
    (lower : String → String) (mode : String) (o : CloudObj (Fin (k + 2) → K)) (hv : o.c.Valid)
    (sizes : List (Arg K)) (H : Hier k K) (hH : HierNew dev eps lower mode o sizes (.ok H))
    (hpos : ∀ cs ∈ H.cellSizes, ∀ d, 0 < cs d) :
    H.len = sizes.length + 1 ∧ H.clouds.head? = some o ∧
    H.nbhs.length = sizes.length ∧ H.cellSizes.length = sizes.length ∧
    (H.clouds.map (·.c)).IsChain Coarsens ∧
    (lower mode ∈ ["poisson", "poisson disk", "poisson_disk"] →
      (H.clouds.map (·.c)).IsChain SubCloud) := by
  rcases hH with ⟨ls, hls, he⟩ | ⟨e, _, he⟩
  swap
  · simp at he
  simp only [Except.ok.injEq] at he
  subst he
  simp only at hpos
  generalize o.batchShape = bs at hls
  suffices hmain : ls.length = sizes.length ∧
      ((o :: ls.map (·.1)).map (·.c)).IsChain Coarsens ∧
      (lower mode ∈ ["poisson", "poisson disk", "poisson_disk"] →
        ((o :: ls.map (·.1)).map (·.c)).IsChain SubCloud) by
    refine ⟨by simp [Hier.len, hmain.1], rfl, by simp [hmain.1], by simp [hmain.1], hmain.2⟩
  generalize hr : (Except.ok ls : Except Err _) = r at hls
  induction hls generalizing ls with
  | nil o =>
    simp only [Except.ok.injEq] at hr
    subst hr
    simp
  | fail o a as e _ => simp at hr
  | failLater o a as o' cs h e _ _ => simp at hr
  | cons o a as o' cs h rest hst _ ih =>
    simp only [Except.ok.injEq] at hr
    subst hr
    have h1 := levelStep_spec heps hv hst (hpos cs (by simp))
    obtain ⟨i1, i2, i3⟩ := ih h1.1.valid rest
      (fun c hc => hpos c (by simp only [List.map_cons, List.mem_cons]; exact Or.inr hc)) rfl
    refine ⟨by simp [i1], ?_, ?_⟩
    · simp only [List.map_cons, List.isChain_cons_cons] at i2 ⊢
      exact ⟨h1.1, i2⟩
    · intro hp
      have := i3 hp
      simp only [List.map_cons, List.isChain_cons_cons] at this ⊢
      exact ⟨h1.2 hp, this⟩

/-- **C31, any two levels.** Coarsening composes, so a later level never has more
points of an element than an earlier one, nor loses an element. -/
theorem C31_any_two_levels (dev : Device) (eps : K) (heps : 0 < eps)
    (lower : String → String) (mode : String) (o : CloudObj (Fin (k + 2) → K)) (hv : o.c.Valid)
    (sizes : List (Arg K)) (H : Hier k K) (hH : HierNew dev eps lower mode o sizes (.ok H))
    (hpos : ∀ cs ∈ H.cellSizes, ∀ d, 0 < cs d) :
    (H.clouds.map (·.c)).Pairwise (fun c c' => c'.B = c.B ∧
      ∀ b, c'.countIn b ≤ c.countIn b ∧ (0 < c.countIn b → 0 < c'.countIn b)) := by
  have h := (C31_hierarchy_well_formed dev eps heps lower mode o hv sizes H hH hpos).2.2.2.2.1
  haveI : IsTrans (Cloud (Fin (k + 2) → K)) (Coarsens (α := Fin (k + 2) → K)) := ⟨fun a b c hab hbc =>
    ⟨hbc.batchSize.trans hab.batchSize, hbc.valid, fun b => (hbc.shrinks b).trans (hab.shrinks b),
      fun b hb => hbc.keeps b (hab.keeps b hb)⟩⟩
  exact h.pairwise.imp (fun h => ⟨h.batchSize, fun b => ⟨h.shrinks b, h.keeps b⟩⟩)

/-- **C31, the constructor succeeds.** On the GPU, for a valid non-empty cloud
whose batch shape (if set) matches its batch size, any list of vectors with
`1..D` positive entries and a documented sampling mode, the constructor has a
result and no possible result is an exception. -/
theorem C31_constructor_succeeds (eps : K) (heps : 0 < eps)
    (lower : String → String) (mode : String)
    (hm : lower mode ∈ ["poisson", "poisson disk", "poisson_disk", "average", "cell average",
      "cell_average"])
    (o : CloudObj (Fin (k + 2) → K)) (hv : o.c.Valid) (hn : 0 < o.c.n)
    (hbs : ∀ sh, o.batchShape = some sh → sh.prod = o.c.B)
    (sizes : List (Arg K))
    (hs : ∀ a ∈ sizes, a.shape = [a.vals.length] ∧ 1 ≤ a.vals.length ∧ a.vals.length ≤ k + 2 ∧
      ∀ v ∈ a.vals, 0 < v) :
    (∃ H, HierNew .gpu eps lower mode o sizes (.ok H)) ∧
    ∀ e, ¬ HierNew .gpu eps lower mode o sizes (.error e) := by
  -- completion of the cell sizes
  have hcomp : ∀ a : Arg K, a.shape = [a.vals.length] → 1 ≤ a.vals.length → a.vals.length ≤ k + 2 →
      (∀ v ∈ a.vals, 0 < v) → ∃ l, completeCellSizes (k + 2) a = .ok l ∧
        ∀ d : Fin (k + 2), 0 < (vecOf l : Fin (k + 2) → K) d := by
    intro a h1 h2 h3 h4
    have hpos : ∀ l : List K, l.length = k + 2 → (∀ v ∈ l, 0 < v) →
        ∀ d : Fin (k + 2), 0 < (vecOf l : Fin (k + 2) → K) d := by
      intro l hl hv d
      unfold vecOf
      rw [List.getD_eq_getElem?_getD, List.getElem?_eq_getElem (by have := d.isLt; omega)]
      exact hv _ (List.getElem_mem _)
    unfold completeCellSizes
    rw [h1]
    dsimp only
    by_cases hlt : a.vals.length < k + 2
    · rw [if_pos hlt, List.getElem?_eq_getElem (by omega)]
      refine ⟨_, rfl, hpos _ (by simp; omega) ?_⟩
      intro v hv'
      rcases List.mem_append.mp hv' with h | h
      · exact h4 v h
      · rw [List.eq_of_mem_replicate h]; exact h4 _ (List.getElem_mem _)
    · rw [if_neg hlt, if_pos (by omega)]
      exact ⟨_, rfl, hpos _ (by omega) h4⟩
  -- a single level
  have hstep : ∀ (o : CloudObj (Fin (k + 2) → K)) (bs : Option (List ℕ)) (a : Arg K), o.c.Valid → 0 < o.c.n →
      (∀ sh, bs = some sh → sh.prod = o.c.B) →
      a.shape = [a.vals.length] → 1 ≤ a.vals.length → a.vals.length ≤ k + 2 →
      (∀ v ∈ a.vals, 0 < v) →
      (∃ r, LevelStep .gpu eps lower mode bs o a (.ok r)) ∧
      (∀ e, ¬ LevelStep .gpu eps lower mode bs o a (.error e)) ∧
      ∀ o' cs h, LevelStep .gpu eps lower mode bs o a (.ok (o', cs, h)) →
        o'.c.Valid ∧ 0 < o'.c.n ∧ o'.c.B = o.c.B := by
    intro o bs a hv hn hbs h1 h2 h3 h4
    obtain ⟨l, hl, hpos⟩ := hcomp a h1 h2 h3 h4
    obtain ⟨r, hr⟩ := findNeighbors_gpu_returns (⟨o.c, vecOf l, eps⟩ : Grid (k + 2) K)
      (Grid.sortedCloud ⟨o.c, vecOf l, eps⟩) (vecOf l) hv hpos heps hn (fun i => hv _)
    have hnew : ∃ h, Nbh.new .gpu (⟨o.c, vecOf l, eps⟩ : Grid (k + 2) K) (vecOf l) none = .ok h := by
      unfold Nbh.new
      dsimp only
      rw [hr]
      exact ⟨_, rfl⟩
    obtain ⟨h, hnew⟩ := hnew
    have hfin : ∀ o' cs h, LevelStep .gpu eps lower mode bs o a (.ok (o', cs, h)) →
        o'.c.Valid ∧ 0 < o'.c.n ∧ o'.c.B = o.c.B := by
      intro o' cs h' hst
      have hcs : cs = vecOf l := by
        cases hst with
        | ok l' h' c hl' _ _ _ =>
          rw [hl] at hl'
          simp only [Except.ok.injEq] at hl'
          subst hl'
          rfl
      have hc := (levelStep_spec heps hv hst (by rw [hcs]; exact hpos)).1
      refine ⟨hc.valid, ?_, hc.batchSize⟩
      have hk := hc.keeps (o.c.batch ⟨0, hn⟩) (Finset.card_pos.mpr ⟨⟨0, hn⟩, by simp⟩)
      obtain ⟨i, _⟩ := Finset.card_pos.mp hk
      exact lt_of_le_of_lt (Nat.zero_le _) i.isLt
    -- every sampling result is accepted
    have hsel := C28_sample_modes_partial h lower mode
    have hshape : ∀ c : Cloud (Fin (k + 2) → K), c.B = o.c.B →
        ((CloudObj.ofCloud c).setBatchShape bs).1 = .ok () := by
      intro c hc
      unfold CloudObj.setBatchShape
      cases bs with
      | none => rfl
      | some sh =>
        have := hbs sh rfl
        have h' : sh.prod = (CloudObj.ofCloud c).c.B := by
          show sh.prod = c.B
          rw [hc]; exact this
        dsimp only
        rw [if_pos h']
        rfl
    have hsB : h.sample.B = o.c.B := by rw [(new_pairs hnew).2.2.1]; rfl
    have hB : ∀ c, SampleResult h lower mode (.ok c) → c.B = o.c.B := by
      intro c hc
      unfold SampleResult at hc
      split at hc
      · simp at hc
      · obtain ⟨c', hc', he⟩ := hc
        simp only [Except.ok.injEq] at he
        subst he
        cases hc' with
        | poisson out _ => exact hsB
        | average => exact hsB
    have hex : ∃ c, SampleResult h lower mode (.ok c) := by
      by_cases hp : lower mode ∈ ["poisson", "poisson disk", "poisson_disk"]
      · obtain ⟨out, ho⟩ := (C24_poisson_terminates .gpu _ _ h hnew hv rfl hpos heps).2.2.2
        exact ⟨_, (hsel.1 hp _).mpr ⟨out, ho, rfl⟩⟩
      · exact ⟨_, (hsel.2.1 (by
          simp only [List.mem_cons, List.not_mem_nil, or_false, not_or] at hp hm ⊢
          tauto) _).mpr rfl⟩
    have hnoerr : ∀ e, ¬ SampleResult h lower mode (.error e) := by
      intro e he
      unfold SampleResult at he
      split at he
      · rename_i hnone
        simp only [List.mem_cons, List.not_mem_nil, or_false] at hm
        rcases hm with e | e | e | e | e | e <;> rw [e] at hnone <;> simp [sampleModes] at hnone
      · obtain ⟨c', _, he⟩ := he
        simp at he
    refine ⟨?_, ?_, hfin⟩
    · obtain ⟨c, hc⟩ := hex
      exact ⟨_, LevelStep.ok l h c hl hnew hc (hshape c (hB c hc))⟩
    · intro e he
      generalize hr' : (Except.error e : Except Err (CloudObj (Fin (k + 2) → K) ×
        (Fin (k + 2) → K) × Nbh k K)) = r at he
      cases he with
      | badSizes e he => rw [hl] at he; simp at he
      | badSearch l' e hl' he =>
        rw [hl] at hl'
        simp only [Except.ok.injEq] at hl'
        subst hl'
        rw [hnew] at he; simp at he
      | badSample l' h' e hl' hh he =>
        rw [hl] at hl'
        simp only [Except.ok.injEq] at hl'
        subst hl'
        rw [hnew] at hh
        simp only [Except.ok.injEq] at hh
        subst hh
        exact hnoerr e he
      | badShape l' h' c e hl' hh hc he =>
        rw [hl] at hl'
        simp only [Except.ok.injEq] at hl'
        subst hl'
        rw [hnew] at hh
        simp only [Except.ok.injEq] at hh
        subst hh
        rw [hshape c (hB c hc)] at he
        simp at he
      | ok l' h' c hl' hh hc he => simp at hr'
  -- all levels
  have hlev : ∀ (sizes : List (Arg K)) (o : CloudObj (Fin (k + 2) → K)) (bs : Option (List ℕ)), o.c.Valid →
      0 < o.c.n → (∀ sh, bs = some sh → sh.prod = o.c.B) →
      (∀ a ∈ sizes, a.shape = [a.vals.length] ∧ 1 ≤ a.vals.length ∧ a.vals.length ≤ k + 2 ∧
        ∀ v ∈ a.vals, 0 < v) →
      (∃ ls, Levels .gpu eps lower mode bs o sizes (.ok ls)) ∧
      ∀ e, ¬ Levels .gpu eps lower mode bs o sizes (.error e) := by
    intro sizes
    induction sizes with
    | nil =>
      intro o bs _ _ _ _
      refine ⟨⟨[], Levels.nil o⟩, ?_⟩
      intro e he
      cases he
    | cons a as ih =>
      intro o bs hv hn hbs hs
      obtain ⟨a1, a2, a3, a4⟩ := hs a (by simp)
      obtain ⟨⟨⟨o', cs, h⟩, hst⟩, hne, hnext⟩ := hstep o bs a hv hn hbs a1 a2 a3 a4
      have hrec : ∀ o' cs h, LevelStep .gpu eps lower mode bs o a (.ok (o', cs, h)) →
          (∃ ls, Levels .gpu eps lower mode bs o' as (.ok ls)) ∧
          ∀ e, ¬ Levels .gpu eps lower mode bs o' as (.error e) := by
        intro o' cs h hst
        obtain ⟨n1, n2, n3⟩ := hnext o' cs h hst
        exact ih o' bs n1 n2 (fun sh hsh => by rw [n3]; exact hbs sh hsh)
          (fun a ha => hs a (by simp [ha]))
      constructor
      · obtain ⟨ls, hls⟩ := (hrec o' cs h hst).1
        exact ⟨_, Levels.cons o a as o' cs h ls hst hls⟩
      · intro e he
        cases he with
        | fail _ _ _ _ hf => exact hne e hf
        | failLater _ _ _ o'' cs'' h'' _ hst' hl => exact (hrec o'' cs'' h'' hst').2 e hl
  obtain ⟨⟨ls, hls⟩, hno⟩ := hlev sizes o o.batchShape hv hn hbs hs
  refine ⟨⟨_, Or.inl ⟨ls, hls, rfl⟩⟩, ?_⟩
  rintro e (⟨_, _, h⟩ | ⟨e', h, _⟩)
  · simp at h
  · exact hno e' h

/-- Non-vacuity of C31: a two-element cloud and two vectors of cell sizes satisfy
all hypotheses of `C31_constructor_succeeds`, so a hierarchy of three levels
exists. -/
example : ∃ H : Hier 0 ℚ, HierNew .gpu (1 / 10) id "poisson" (CloudObj.ofCloud exGrid.c)
    [⟨[1], [1]⟩, ⟨[2], [2, 3]⟩] (.ok H) :=
  (C31_constructor_succeeds (k := 0) (1 / 10 : ℚ) (by norm_num) id "poisson" (by simp)
    (CloudObj.ofCloud exGrid.c) (by decide) (by decide) (by intro sh h; cases h)
    [⟨[1], [1]⟩, ⟨[2], [2, 3]⟩] (by
      intro a ha
      simp only [List.mem_cons, List.not_mem_nil, or_false] at ha
      rcases ha with rfl | rfl <;> simp)).1

/-! ## C32 -/

/-- **C32, negation.** Cell sizes `(1, 2)` in three dimensions become
`(1, 2, 1)`: the FIRST value is repeated, not the last one; and a scalar cell
size (a `float`, as the documentation allows) raises. -/
theorem C32_completion_false :
    completeCellSizes 3 (⟨[2], [1, 2]⟩ : Arg ℚ) = .ok [1, 2, 1] ∧
    ∀ (D : ℕ) (r : K), completeCellSizes D ⟨[], [r]⟩ = .error .invalidArgument :=
  ⟨rfl, fun _ _ => rfl⟩

/-- **C32, what holds.** For a vector `l`: with more than `D` entries it is
rejected, with `D` entries it is used as it is, with fewer it is extended to
`D` entries by copies of its FIRST value, an empty one is rejected; so the
documented completion happens exactly if the last entry equals the first.
Missing: completion with the last value. -/
theorem C32_completion_partial {K : Type*} (D : ℕ) (l : List K) :
    (D < l.length → completeCellSizes D ⟨[l.length], l⟩ = .error .invalidArgument) ∧
    (l.length = D → completeCellSizes D ⟨[l.length], l⟩ = .ok l) ∧
    (∀ (hl : l ≠ []), l.length < D →
      completeCellSizes D ⟨[l.length], l⟩ = .ok (l ++ List.replicate (D - l.length) (l.head hl)) ∧
      (completeCellSizes D ⟨[l.length], l⟩ = .ok (l ++ List.replicate (D - l.length) (l.getLast hl)) ↔
        l.head hl = l.getLast hl)) ∧
    (0 < D → completeCellSizes D (⟨[0], []⟩ : Arg K) = .error .invalidArgument) := by
  refine ⟨?_, ?_, ?_, ?_⟩
  · intro h
    simp only [completeCellSizes]
    rw [if_neg (by omega), if_neg (by omega)]
  · intro h
    simp only [completeCellSizes]
    rw [if_neg (by omega), if_pos (by omega)]
  · intro hl hlt
    have h1 : completeCellSizes D ⟨[l.length], l⟩ =
        .ok (l ++ List.replicate (D - l.length) (l.head hl)) := by
      cases l with
      | nil => exact absurd rfl hl
      | cons a l =>
        simp only [completeCellSizes]
        rw [if_pos hlt]
        rfl
    refine ⟨h1, ?_⟩
    rw [h1]
    simp only [Except.ok.injEq, List.append_cancel_left_eq]
    constructor
    · intro h
      have := congrArg List.head? h
      simp only [List.head?_replicate] at this
      rw [if_neg (by omega), if_neg (by omega)] at this
      simpa using this
    · intro h; rw [h]
  · intro h
    simp [completeCellSizes, h]

/-! ## C68 -/

/-- **C68, what `get_neighborhood` returns.** For every hierarchy, the `i`-th
neighbourhood is that of level `i` with itself: its grid is built on level `i`
with the `i`-th cell sizes, its centres are the (sorted) points of level `i`.
Missing: the documented neighbourhood between levels `i` and `i + 1`, see
`C68_between_levels_false`. -/
theorem C68_neighborhood_partial (dev : Device) (eps : K) (lower : String → String) (mode : String)
    (o : CloudObj (Fin (k + 2) → K)) (sizes : List (Arg K)) (H : Hier k K)
    (hH : HierNew dev eps lower mode o sizes (.ok H)) (i : ℕ) (hi : i < sizes.length) :
    ∃ h o', H.getNeighborhood dev i false = .ok h ∧ H.get i = .ok o' ∧
      (∃ cs, H.cellSizes[i]? = some cs ∧ h.g = ⟨o'.c, cs, eps⟩ ∧ h.radii = cs) ∧
      h.sample = h.g.sortedCloud ∧ h.equalSamples = true := by
  rcases hH with ⟨ls, hls, he⟩ | ⟨e, _, he⟩
  swap
  · simp at he
  simp only [Except.ok.injEq] at he
  subst he
  suffices hmain : ∃ h o', (ls.map (·.2.2))[i]? = some h ∧ (o :: ls.map (·.1))[i]? = some o' ∧
      (∃ cs, (ls.map (·.2.1))[i]? = some cs ∧ h.g = ⟨o'.c, cs, eps⟩ ∧ h.radii = cs) ∧
      h.sample = h.g.sortedCloud ∧ h.equalSamples = true by
    obtain ⟨h, o', m1, m2, m3⟩ := hmain
    refine ⟨h, o', ?_, ?_, m3⟩
    · unfold Hier.getNeighborhood pyGet
      simp only [show ¬ ((i : ℤ) < 0) by omega, if_false, Int.toNat_natCast, m1]
      rfl
    · unfold Hier.get pyGet
      simp only [show ¬ ((i : ℤ) < 0) by omega, if_false, Int.toNat_natCast, m2]
  generalize o.batchShape = bs at hls
  generalize hr : (Except.ok ls : Except Err _) = r at hls
  induction hls generalizing ls i with
  | nil o => simp at hi
  | fail o a as e _ => simp at hr
  | failLater o a as o' cs h e _ _ => simp at hr
  | cons o a as o' cs h rest hst _ ih =>
    simp only [Except.ok.injEq] at hr
    subst hr
    cases i with
    | zero =>
      refine ⟨h, o, rfl, rfl, ⟨cs, rfl, ?_⟩, ?_⟩
      all_goals
        cases hst with
        | ok l h c hl hnew hs hb =>
          obtain ⟨e1, e2, e3, e4, _⟩ := new_pairs hnew
          first
            | exact ⟨e1, e2⟩
            | (rw [e3, e1, e4]; exact ⟨rfl, rfl⟩)
    | succ i =>
      have := ih i (by simpa using hi) rest rfl
      simpa using this

/-- **C68, index range.** With `m` cell sizes exactly the indices `-m, ..., m-1`
are accepted; the documentation allows `-num_levels, ..., num_levels-1` where
`num_levels = m + 1`. -/
theorem C68_index_range (dev : Device) (eps : K) (lower : String → String) (mode : String)
    (o : CloudObj (Fin (k + 2) → K)) (sizes : List (Arg K)) (H : Hier k K)
    (hH : HierNew dev eps lower mode o sizes (.ok H)) (i : ℤ) :
    H.getNeighborhood dev i false = .error .indexError ↔
      ¬ (-(sizes.length : ℤ) ≤ i ∧ i < sizes.length) := by
  have hlen : H.nbhs.length = sizes.length := by
    rcases hH with ⟨ls, hls, he⟩ | ⟨e, _, he⟩
    swap
    · simp at he
    simp only [Except.ok.injEq] at he
    subst he
    simp only [List.length_map]
    generalize o.batchShape = bs at hls
    generalize hr : (Except.ok ls : Except Err _) = r at hls
    induction hls generalizing ls with
    | nil o => simp only [Except.ok.injEq] at hr; subst hr; rfl
    | fail o a as e _ => simp at hr
    | failLater o a as o' cs h e _ _ => simp at hr
    | cons o a as o' cs h rest hst _ ih =>
      simp only [Except.ok.injEq] at hr
      subst hr
      simpa using ih rest rfl
  have hget : ∀ j : ℕ, j < H.nbhs.length → ∃ x, H.nbhs[j]? = some x :=
    fun j hj => ⟨_, List.getElem?_eq_getElem hj⟩
  unfold Hier.getNeighborhood pyGet
  dsimp only
  rw [hlen]
  by_cases hi : i < 0
  · rw [if_pos hi]
    by_cases hj : i + sizes.length < 0
    · rw [if_pos hj]
      simp only [true_iff]
      omega
    · rw [if_neg hj]
      obtain ⟨x, hx⟩ := hget (i + sizes.length).toNat (by omega)
      rw [hx]
      simp
      omega
  · rw [if_neg hi, if_neg hi]
    by_cases hj : i < sizes.length
    · obtain ⟨x, hx⟩ := hget i.toNat (by omega)
      rw [hx]
      simp
      omega
    · rw [List.getElem?_eq_none (by omega)]
      simp
      omega

end

/-- Two points at distance 1/2. -/
abbrev pairCloud : Cloud (Fin 2 → ℚ) := ⟨2, ![![0, 0], ![1/2, 0]], ![0, 0], 1⟩

/-- **C68, negation.** For two points merged into one: the neighbourhood "between
level 0 and 1" has two centres, though level 1 has a single point. -/
theorem C68_between_levels_false :
    ∃ H : Hier 0 ℚ, HierNew .gpu (1 / 10) id "average" (CloudObj.ofCloud pairCloud)
        [⟨[2], [1, 1]⟩] (.ok H) ∧
      ∃ h o', H.getNeighborhood .gpu 0 false = .ok h ∧ H.get 1 = .ok o' ∧
        h.sample.n = 2 ∧ o'.c.n = 1 := by
  have key : (Nbh.new .gpu (⟨pairCloud, vecOf [1, 1], 1 / 10⟩ : Grid 2 ℚ) (vecOf [1, 1]) none).map
      (fun h => (h.sample.n, (cellAverage h.g h.sample.B).n)) = .ok (2, 1) := by decide +kernel
  cases hh : Nbh.new .gpu (⟨pairCloud, vecOf [1, 1], 1 / 10⟩ : Grid 2 ℚ) (vecOf [1, 1]) none with
  | error e => rw [hh] at key; simp [Except.map] at key
  | ok h =>
    rw [hh] at key
    simp only [Except.map, Except.ok.injEq, Prod.mk.injEq] at key
    have hst : LevelStep .gpu (1 / 10 : ℚ) id "average" none (CloudObj.ofCloud pairCloud)
        ⟨[2], [1, 1]⟩ (.ok (_, vecOf [1, 1], h)) :=
      LevelStep.ok [1, 1] h (cellAverage h.g h.sample.B) rfl hh
        (((C28_sample_modes_partial h id "average").2.1 (by simp) _).mpr rfl) rfl
    refine ⟨_, Or.inl ⟨_, Levels.cons _ _ _ _ _ _ _ hst (Levels.nil _), rfl⟩, h, _, rfl, rfl,
      key.1, ?_⟩
    simpa [setBatchShape_c, CloudObj.setBatchShape, CloudObj.ofCloud] using key.2

section
variable {K : Type*} [Field K] [LinearOrder K] [IsStrictOrderedRing K] [FloorRing K] {k : ℕ}

/-! ## C69 -/

/-- **C69, negation.** Asking for all transposed neighbourhoods raises for every
hierarchy with at least one cell size. -/
theorem C69_all_transposed_false (dev : Device) (eps : K) (lower : String → String) (mode : String)
    (o : CloudObj (Fin (k + 2) → K)) (sizes : List (Arg K)) (H : Hier k K)
    (hH : HierNew dev eps lower mode o sizes (.ok H)) (hs : sizes ≠ []) :
    H.getNeighborhoods true = .error .typeError := by
  have h0 : 0 < sizes.length := List.length_pos_iff.mpr hs
  obtain ⟨h, o', h1, _⟩ := C68_neighborhood_partial dev eps lower mode o sizes H hH 0 h0
  unfold Hier.getNeighborhoods
  rw [if_pos rfl]
  cases hn : H.nbhs with
  | nil =>
    unfold Hier.getNeighborhood pyGet at h1
    rw [hn] at h1
    simp at h1
  | cons x l => rfl

/-- **C69, what holds.** For a single index the transposed neighbourhood is
returned, and it is the neighbourhood itself (see C23 for the symmetry of self
neighbourhoods).  Missing: the list of all transposed neighbourhoods. -/
theorem C69_transposed_partial (dev : Device) (eps : K) (lower : String → String)
    (mode : String) (o : CloudObj (Fin (k + 2) → K)) (sizes : List (Arg K)) (H : Hier k K)
    (hH : HierNew dev eps lower mode o sizes (.ok H)) (i : ℕ) (hi : i < sizes.length) :
    ∃ h, H.getNeighborhood dev i false = .ok h ∧ H.getNeighborhood dev i true = .ok h := by
  obtain ⟨h, o', h1, h2, h3, h4, h5⟩ := C68_neighborhood_partial dev eps lower mode o sizes H hH i hi
  refine ⟨h, h1, ?_⟩
  unfold Hier.getNeighborhood at h1 ⊢
  split at h1
  · simp at h1
  · rename_i h' hp
    simp only [Bool.false_eq_true, if_false, Except.ok.injEq] at h1
    subst h1
    simp only [if_true, Nbh.transpose, h5]

/-! ## C70 -/

theorem loopAll_ok {β α : Type*} (f : CloudObj α → Except Err β × CloudObj α) (l : List (CloudObj α))
    (h : ∀ o ∈ l, ∃ b, (f o).1 = .ok b) :
    (∃ bs, (Hier.loopAll f l).1 = .ok bs) ∧ (Hier.loopAll f l).2 = l.map (fun o => (f o).2) := by
  induction l with
  | nil => exact ⟨⟨[], rfl⟩, rfl⟩
  | cons o os ih =>
    obtain ⟨⟨bs, h1⟩, h2⟩ := ih (fun o ho => h o (by simp [ho]))
    obtain ⟨b, hb⟩ := h o (by simp)
    unfold Hier.loopAll
    cases hf : f o with
    | mk r o' =>
      rw [hf] at hb
      simp only at hb
      subst hb
      cases hl : Hier.loopAll f os with
      | mk r2 os' =>
        rw [hl] at h1 h2
        simp only at h1 h2
        subst h1 h2
        exact ⟨⟨_, rfl⟩, by simp [hf]⟩

/-- The levels of a hierarchy are clouds after some history of method calls. -/
def Hier.LevelsFrom (H : Hier k K) (L : List (Cloud (Fin (k + 2) → K) × List CloudObj.Call)) : Prop :=
  H.clouds = L.map (fun p => (CloudObj.ofCloud p.1).afterAll p.2)

/-- **C70, what holds.** If no level has an empty batch element, then after any
history of calls on the levels, `set_batch_shape(sh)` of the hierarchy either
raises and changes nothing (product of `sh` different from the batch size) or
sets the shape of every level, leaving points and batch ids as they are.
Missing: levels with empty batch elements, see `C70_set_batch_shape_false`. -/
theorem C70_set_batch_shape_partial (H : Hier k K)
    (L : List (Cloud (Fin (k + 2) → K) × List CloudObj.Call)) (hL : H.LevelsFrom L) (hne : L ≠ [])
    (B : ℕ) (hB : ∀ p ∈ L, p.1.B = B ∧ p.1.Valid ∧ p.1.NoEmpty) (sh : List ℕ) :
    (sh.prod ≠ B → H.setBatchShape (some sh) = (.error .invalidArgument, H)) ∧
    (sh.prod = B → (H.setBatchShape (some sh)).1 = .ok () ∧
      (H.setBatchShape (some sh)).2.clouds.map (·.c) = H.clouds.map (·.c) ∧
      ∀ o ∈ (H.setBatchShape (some sh)).2.clouds, o.batchShape = some sh) := by
  obtain ⟨clouds, cs, nbhs, bs⟩ := H
  unfold Hier.LevelsFrom at hL
  simp only at hL
  subst hL
  constructor
  · intro hp
    cases L with
    | nil => exact absurd rfl hne
    | cons p L =>
      have hc : ((CloudObj.ofCloud p.1).afterAll p.2).c = p.1 := CloudObj.afterAll_c _ _
      have := C08_rejected_unchanged ((CloudObj.ofCloud p.1).afterAll p.2) sh
        (by rw [hc, (hB p (by simp)).1]; exact hp)
      unfold Hier.setBatchShape
      simp only [List.map_cons, Hier.loopAll, this]
      rfl
  · intro hp
    have hok : ∀ o ∈ L.map (fun p => (CloudObj.ofCloud p.1).afterAll p.2),
        ∃ b, (o.setBatchShape (some sh)).1 = .ok b := by
      intro o ho
      simp only [List.mem_map] at ho
      obtain ⟨p, hpL, rfl⟩ := ho
      obtain ⟨h1, h2, h3⟩ := hB p hpL
      exact ⟨(), (C08_accepts_iff_partial p.1 h2 h3 p.2 sh).mpr (by rw [h1]; exact hp)⟩
    obtain ⟨⟨us, h1⟩, h2⟩ := loopAll_ok (fun o => o.setBatchShape (some sh)) _ hok
    unfold Hier.setBatchShape
    simp only [h1, h2]
    refine ⟨rfl, ?_, ?_⟩
    · rw [List.map_map]
      apply List.map_congr_left
      intro o _
      exact setBatchShape_c o _
    · intro o ho
      simp only [List.mem_map] at ho
      obtain ⟨o0, ⟨p, hpL, rfl⟩, rfl⟩ := ho
      have hc : ((CloudObj.ofCloud p.1).afterAll p.2).c = p.1 := CloudObj.afterAll_c _ _
      generalize (CloudObj.ofCloud p.1).afterAll p.2 = o at hc
      have : sh.prod = o.c.B := by rw [hc, (hB p hpL).1]; exact hp
      unfold CloudObj.setBatchShape
      dsimp only
      rw [if_pos this]
      repeat' split
      all_goals rfl

/-- The levels built by the constructor from a cloud (after any history of calls
on it) satisfy the hypotheses of `C70_set_batch_shape_partial` if the cloud has
no empty batch element. -/
theorem C70_levels (dev : Device) (eps : K) (heps : 0 < eps)
    (lower : String → String) (mode : String) (c : Cloud (Fin (k + 2) → K))
    (hist : List CloudObj.Call) (hv : c.Valid) (hne : c.NoEmpty)
    (sizes : List (Arg K)) (H : Hier k K)
    (hH : HierNew dev eps lower mode ((CloudObj.ofCloud c).afterAll hist) sizes (.ok H))
    (hpos : ∀ cs ∈ H.cellSizes, ∀ d, 0 < cs d) :
    ∃ L, H.LevelsFrom L ∧ L ≠ [] ∧ ∀ p ∈ L, p.1.B = c.B ∧ p.1.Valid ∧ p.1.NoEmpty := by
  have hc : ((CloudObj.ofCloud c).afterAll hist).c = c := CloudObj.afterAll_c _ _
  have hchain := (C31_hierarchy_well_formed dev eps heps lower mode _ (by rw [hc]; exact hv) sizes H
    hH hpos).2.2.2.2.1
  rcases hH with ⟨ls, hls, he⟩ | ⟨e, _, he⟩
  swap
  · simp at he
  simp only [Except.ok.injEq] at he
  subst he
  simp only at hchain hpos
  unfold Hier.LevelsFrom
  simp only
  -- the later levels are fresh clouds after one call
  have hfresh : ∀ x ∈ ls.map (·.1), ∃ p : Cloud (Fin (k + 2) → K) × List CloudObj.Call,
      x = (CloudObj.ofCloud p.1).afterAll p.2 := by
    generalize ((CloudObj.ofCloud c).afterAll hist).batchShape = bs at hls
    clear hchain hpos hc
    generalize (CloudObj.ofCloud c).afterAll hist = o0 at hls
    generalize hr : (Except.ok ls : Except Err _) = r at hls
    induction hls generalizing ls with
    | nil o => simp only [Except.ok.injEq] at hr; subst hr; simp
    | fail o a as e _ => simp at hr
    | failLater o a as o' cs h e _ _ => simp at hr
    | cons o a as o' cs h rest hst _ ih =>
      simp only [Except.ok.injEq] at hr
      subst hr
      intro x hx
      simp only [List.map_cons, List.mem_cons] at hx
      rcases hx with rfl | hx
      · cases hst with
        | ok l h c' hl hnew hs hb => exact ⟨(c', [.setBatchShape bs]), rfl⟩
      · exact ih rest rfl x hx
  have hlist : ∀ l : List (CloudObj (Fin (k + 2) → K)),
      (∀ x ∈ l, ∃ p : Cloud (Fin (k + 2) → K) × List CloudObj.Call,
        x = (CloudObj.ofCloud p.1).afterAll p.2) →
      ∃ L : List (Cloud (Fin (k + 2) → K) × List CloudObj.Call),
        l = L.map (fun p => (CloudObj.ofCloud p.1).afterAll p.2) := by
    intro l
    induction l with
    | nil => intro _; exact ⟨[], rfl⟩
    | cons x l ih =>
      intro h
      obtain ⟨p, hp⟩ := h x (by simp)
      obtain ⟨L, hL⟩ := ih (fun y hy => h y (by simp [hy]))
      exact ⟨p :: L, by rw [hL, hp]; rfl⟩
  obtain ⟨L, hL⟩ := hlist _ hfresh
  refine ⟨(c, hist) :: L, by rw [hL]; rfl, by simp, ?_⟩
  have hclouds : (((CloudObj.ofCloud c).afterAll hist :: ls.map (·.1)).map (·.c)) =
      ((c, hist) :: L).map (·.1) := by
    simp only [List.map_cons, hL, hc, List.map_map]
    congr 1
    apply List.map_congr_left
    intro p _
    exact CloudObj.afterAll_c _ _
  rw [hclouds] at hchain
  have hall : ∀ (c : Cloud (Fin (k + 2) → K)) (l : List (Cloud (Fin (k + 2) → K))),
      (c :: l).IsChain Coarsens → c.Valid → c.NoEmpty →
      ∀ x ∈ c :: l, x.B = c.B ∧ x.Valid ∧ x.NoEmpty := by
    intro c l
    induction l generalizing c with
    | nil =>
      intro _ h1 h2 x hx
      simp only [List.mem_singleton] at hx
      subst hx
      exact ⟨rfl, h1, h2⟩
    | cons y l ih =>
      intro hch h1 h2 x hx
      rw [List.isChain_cons_cons] at hch
      rcases List.mem_cons.mp hx with rfl | hx
      · exact ⟨rfl, h1, h2⟩
      · have hne : y.NoEmpty := by
          intro b hb
          rw [hch.1.batchSize] at hb
          obtain ⟨i, hi⟩ := h2 b hb
          obtain ⟨j, hj⟩ := Finset.card_pos.mp
            (hch.1.keeps b (Finset.card_pos.mpr ⟨i, by simp [hi]⟩))
          exact ⟨j, by simpa using hj⟩
        obtain ⟨e1, e2, e3⟩ := ih y hch.2 hch.1.valid hne x hx
        exact ⟨e1.trans hch.1.batchSize, e2, e3⟩
  intro p hp
  exact hall c (L.map Prod.fst) hchain hv hne p.1
    (by simpa using List.mem_map_of_mem (f := Prod.fst) hp)

end

/-- **C70, negation.** Batch size 3 with an empty element, sizes of the second
level already queried: the first level has the new shape, the call raises, and
the third level keeps the old one. -/
theorem C70_set_batch_shape_false :
    let c : Cloud (Fin 2 → ℚ) := ⟨2, ![![0, 0], ![5, 0]], ![0, 2], 3⟩
    let H : Hier 0 ℚ := ⟨[CloudObj.ofCloud c, (CloudObj.ofCloud c).afterAll [.getSizes],
      CloudObj.ofCloud c], [], [], none⟩
    (H.setBatchShape (some [3, 1])).1 = .error .invalidArgument ∧
    (H.setBatchShape (some [3, 1])).2.clouds.map (·.batchShape) = [some [3, 1], some [3, 1], none] := by
  decide +kernel

section
variable {K : Type*} [Field K] [LinearOrder K] [IsStrictOrderedRing K] [FloorRing K] {k : ℕ}

/-! ## C71 -/

/-- **C71.** `get_points(b)` of a hierarchy returns one list per level; the list
of a level holds exactly the points of element `b` of this level, in order;
their number does not increase, and no list is empty if the element has
points in the input. -/
theorem C71_get_points (dev : Device) (eps : K) (heps : 0 < eps)
    (lower : String → String) (mode : String) (o : CloudObj (Fin (k + 2) → K)) (hv : o.c.Valid)
    (sizes : List (Arg K)) (H : Hier k K) (hH : HierNew dev eps lower mode o sizes (.ok H))
    (hpos : ∀ cs ∈ H.cellSizes, ∀ d, 0 < cs d) (b : ℕ) (hb : b < o.c.B) :
    ∃ ps, H.getPoints b = .ok ps ∧ ps.length = sizes.length + 1 ∧
      (∀ (i : ℕ) (o' : CloudObj (Fin (k + 2) → K)), H.clouds[i]? = some o' →
        ∃ idx : List (Fin o'.c.n), ps[i]? = some (idx.map o'.c.pts) ∧ idx.Pairwise (· < ·) ∧
          ∀ q, q ∈ idx ↔ o'.c.batch q = b) ∧
      (ps.map List.length).Pairwise (fun m n => n ≤ m ∧ (0 < m → 0 < n)) := by
  have hwf := C31_hierarchy_well_formed dev eps heps lower mode o hv sizes H hH hpos
  have hpw := C31_any_two_levels dev eps heps lower mode o hv sizes H hH hpos
  -- all batch sizes agree
  have hB : ∀ o' ∈ H.clouds, o'.c.B = o.c.B := by
    cases hcl : H.clouds with
    | nil => simp
    | cons x l =>
      have hx : x = o := by
        have := hwf.2.1
        rw [hcl] at this
        simpa using this
      subst hx
      rw [hcl] at hpw
      simp only [List.map_cons, List.pairwise_cons, List.mem_map, forall_exists_index, and_imp] at hpw
      intro o' ho'
      rcases List.mem_cons.mp ho' with rfl | h
      · rfl
      · exact (hpw.1 o'.c o' h rfl).1
  let idxOf : (o' : CloudObj (Fin (k + 2) → K)) → List (Fin o'.c.n) := fun o' =>
    (List.finRange o'.c.n).filter (fun i => (o'.c.batch i : ℤ) = b)
  have hget : ∀ o' ∈ H.clouds, o'.getPointsId b = .ok ((idxOf o').map o'.c.pts) := by
    intro o' ho'
    unfold CloudObj.getPointsId
    rw [if_neg (by rw [hB o' ho']; omega)]
  have hps : H.getPoints b = .ok (H.clouds.map (fun o' => (idxOf o').map o'.c.pts)) := by
    unfold Hier.getPoints
    rw [List.map_congr_left hget]
    rw [← collect_map_ok, List.map_map]
    rfl
  have hcount : ∀ o' : CloudObj (Fin (k + 2) → K), (idxOf o').length = o'.c.countIn b := by
    intro o'
    unfold Cloud.countIn
    rw [← List.toFinset_card_of_nodup ((List.nodup_finRange _).filter _)]
    congr 1
    ext i
    simp [idxOf]
  refine ⟨_, hps, ?_, ?_, ?_⟩
  · rw [List.length_map]; exact hwf.1
  · intro i o' hi
    refine ⟨idxOf o', ?_, ?_, ?_⟩
    · rw [List.getElem?_map, hi]; rfl
    · exact (List.pairwise_lt_finRange _).filter _
    · intro q; simp [idxOf]
  · rw [List.map_map]
    have : (List.length ∘ fun o' : CloudObj (Fin (k + 2) → K) => (idxOf o').map o'.c.pts) =
        (fun c : Cloud (Fin (k + 2) → K) => c.countIn b) ∘ (fun o' => o'.c) := by
      funext o'
      simp [hcount]
    rw [this, ← List.map_map, List.pairwise_map]
    exact hpw.imp (fun h => h.2 b)

end

/-- Non-vacuity of C71: two levels, element 1 keeps its single point. -/
example : (Hier.getPoints (⟨[CloudObj.ofCloud exGrid.c, CloudObj.ofCloud (cellAverage exGrid 2)],
    [], [], none⟩ : Hier 0 ℚ) 1).map (fun l => l.map List.length) = .ok [1, 1] := by
  decide +kernel

end PC
