import Verif.Props.HierPool
import Verif.Props.GpuHier

/-!
# C118: how well the levels of a hierarchy represent the input
-/

set_option linter.unusedVariables false
set_option linter.unusedSectionVars false

namespace PC

/-- Facts about consecutive levels that add up hold between any two levels. -/
theorem consecutive_sum {β γ M : Type*} [AddMonoid M] (R : β → γ → β → Prop) (S : β → M → β → Prop) (w : γ → M)
    (hRS : ∀ a c b, R a c b → S a (w c) b) (hS : ∀ a x b y d, S a x b → S b y d → S a (x + y) d)
    (a : β) (rest : List β) (cs : List γ) (hlen : rest.length = cs.length) (h : Consecutive R (a :: rest) cs)
    (i j : ℕ) (hij : i < j) (u v : β) (hu : (a :: rest)[i]? = some u) (hv : (a :: rest)[j]? = some v) :
    S u ((((cs.drop i).take (j - i)).map w).sum) v := by
  induction cs generalizing a rest i j u with
  | nil =>
    rw [List.length_nil, List.length_eq_zero_iff] at hlen
    subst hlen
    have : j < [a].length := (List.getElem?_eq_some_iff.1 hv).1
    simp only [List.length_singleton] at this
    omega
  | cons c cs ih =>
    cases rest with
    | nil => simp at hlen
    | cons b rest =>
      obtain ⟨h1, h2⟩ := h
      have hl : rest.length = cs.length := by simpa using hlen
      cases i with
      | succ i =>
        obtain ⟨j, rfl⟩ : ∃ j', j = j' + 1 := ⟨j - 1, by omega⟩
        have := ih b rest hl h2 i j (by omega) u (by simpa using hu) (by simpa using hv)
        simpa using this
      | zero =>
        obtain ⟨j, rfl⟩ : ∃ j', j = j' + 1 := ⟨j - 1, by omega⟩
        simp only [List.getElem?_cons_zero, Option.some.injEq] at hu
        subst hu
        have hstep := hRS _ _ _ h1
        rcases Nat.eq_zero_or_pos j with rfl | hj
        · simp only [zero_add, List.getElem?_cons_succ, List.getElem?_cons_zero, Option.some.injEq] at hv
          subst hv
          simpa using hstep
        · have := ih b rest hl h2 0 j hj b (by simp) (by simpa using hv)
          have := hS _ _ _ _ _ hstep this
          simpa using this

section
variable {K : Type*} [Field K] [LinearOrder K] [IsStrictOrderedRing K] [FloorRing K] {k : ℕ}

/-- The triangle inequality for open balls. -/
theorem normLt_add {D : ℕ} {u v : Fin D → K} {r s : K} (hu : normLt u r) (hv : normLt v s) :
    normLt (fun d => u d + v d) (r + s) := by
  obtain ⟨hr, hu⟩ := hu
  obtain ⟨hs, hv⟩ := hv
  refine ⟨add_pos hr hs, ?_⟩
  have hcs := Finset.sum_mul_sq_le_sq_mul_sq Finset.univ u v
  have h1 : ∑ d, u d * v d < r * s := by
    by_contra hle
    push Not at hle
    have h2 : (r * s) ^ 2 ≤ (∑ d, u d * v d) ^ 2 := pow_le_pow_left₀ (mul_pos hr hs).le hle 2
    have h3 : (∑ d, u d ^ 2) * (∑ d, v d ^ 2) < (r * s) ^ 2 := by
      simp only [pow_two] at hu hv ⊢
      have hu0 : 0 ≤ ∑ d, u d * u d := Finset.sum_nonneg (fun d _ => mul_self_nonneg _)
      have hv0 : 0 ≤ ∑ d, v d * v d := Finset.sum_nonneg (fun d _ => mul_self_nonneg _)
      calc _ < (r * r) * (s * s) := mul_lt_mul'' hu hv hu0 hv0
        _ = _ := by ring
    exact absurd (h2.trans hcs) (not_le.2 h3)
  calc ∑ d, (u d + v d) * (u d + v d) = ∑ d, u d * u d + ∑ d, v d * v d + 2 * ∑ d, u d * v d := by
        rw [Finset.mul_sum, ← Finset.sum_add_distrib, ← Finset.sum_add_distrib]
        exact Finset.sum_congr rfl (fun d _ => by ring)
    _ < r * r + s * s + 2 * (r * s) := by linarith
    _ = _ := by ring

/-- A level of a hierarchy is found between the constructor's argument and the
levels it computed. -/
theorem hier_consecutive {dev : Device} {eps : K} (heps : 0 < eps)
    {lower : String → String} {mode : String} {o : CloudObj (Fin (k + 2) → K)} (hv : o.c.Valid)
    {sizes : List (Arg K)} {H : Hier k K} (hH : HierNew dev eps lower mode o sizes (.ok H))
    (hpos : ∀ cs ∈ H.cellSizes, ∀ d, 0 < cs d)
    (R : CloudObj (Fin (k + 2) → K) → (Fin (k + 2) → K) → CloudObj (Fin (k + 2) → K) → Prop)
    (hR : ∀ bs o a o' cs h, o.c.Valid → LevelStep dev eps lower mode bs o a (.ok (o', cs, h)) →
      cs ∈ H.cellSizes → R o cs o') :
    ∃ rest, H.clouds = o :: rest ∧ rest.length = H.cellSizes.length ∧ Consecutive R (o :: rest) H.cellSizes := by
  rcases hH with ⟨ls, hls, he⟩ | ⟨e, _, he⟩
  swap
  · simp at he
  simp only [Except.ok.injEq] at he
  subst he
  exact ⟨ls.map (·.1), rfl, by simp, levels_consecutive heps hls hv hpos R
    (fun o a o' cs h hv hst hcs => hR _ o a o' cs h hv hst hcs)⟩

/-- **C118, Poisson disk sampling.** Between any two levels, every point of the
finer one is closer than the sum of the sampling radii between them to a point of the
coarser one, of the same batch element. -/
theorem C118_poisson (dev : Device) (eps : K) (heps : 0 < eps)
    (lower : String → String) (mode : String) (hmode : lower mode ∈ ["poisson", "poisson disk", "poisson_disk"])
    (o : CloudObj (Fin (k + 2) → K)) (hv : o.c.Valid)
    (sizes : List (Arg K)) (H : Hier k K) (hH : HierNew dev eps lower mode o sizes (.ok H))
    (hpos : ∀ cs ∈ H.cellSizes, 0 < cs 0) (hmin : ∀ cs ∈ H.cellSizes, ∀ d, cs 0 ≤ cs d)
    (i j : ℕ) (hij : i < j) (a b : CloudObj (Fin (k + 2) → K)) (ha : H.clouds[i]? = some a)
    (hb : H.clouds[j]? = some b) (p : Fin a.c.n) :
    ∃ q : Fin b.c.n, b.c.batch q = a.c.batch p ∧
      normLt (fun d => b.c.pts q d - a.c.pts p d)
        ((((H.cellSizes.drop i).take (j - i)).map (fun cs => cs 0)).sum) := by
  obtain ⟨rest, e, hl, hc⟩ := hier_consecutive heps hv hH
    (fun cs hcs d => (hpos cs hcs).trans_le (hmin cs hcs d))
    (fun a cs b => ∀ p : Fin a.c.n, ∃ q : Fin b.c.n, b.c.batch q = a.c.batch p ∧
      normLt (fun d => b.c.pts q d - a.c.pts p d) (cs 0))
    (by
      intro bs o a o' cs h hv hst hcs p
      obtain ⟨q, hq⟩ := C96_poisson heps hv hst (hpos cs hcs) (hmin cs hcs) hmode p
      rw [mem_nbrs] at hq
      obtain ⟨h1, h2, h3⟩ := hq
      refine ⟨q, h1.symm, h2, ?_⟩
      convert h3 using 2
      ring)
  rw [e] at ha hb
  exact consecutive_sum _ (fun (a : CloudObj (Fin (k + 2) → K)) r b => ∀ p : Fin a.c.n, ∃ q : Fin b.c.n,
      b.c.batch q = a.c.batch p ∧ normLt (fun d => b.c.pts q d - a.c.pts p d) r) (fun cs => cs 0)
    (fun _ _ _ h => h)
    (by
      intro a x b y d h1 h2 p
      obtain ⟨q, hq1, hq2⟩ := h1 p
      obtain ⟨q', hq1', hq2'⟩ := h2 q
      refine ⟨q', hq1'.trans hq1, ?_⟩
      have := normLt_add hq2 hq2'
      convert this using 2
      ring) o rest _ hl hc i j hij a b ha hb p

/-- One level of cell averages: every point is closer than the cell size, in every
coordinate, to a point of the new level, and the new level stays between the old points. -/
theorem levelStep_average_cover {dev : Device} {eps : K} (heps : 0 < eps) {lower : String → String}
    {mode : String} {bs : Option (List ℕ)} {o o' : CloudObj (Fin (k + 2) → K)} {a : Arg K}
    {cs : Fin (k + 2) → K} {h : Nbh k K} (hv : o.c.Valid)
    (hst : LevelStep dev eps lower mode bs o a (.ok (o', cs, h))) (hposd : ∀ d, 0 < cs d)
    (ha : lower mode ∈ ["average", "cell average", "cell_average"]) :
    (∀ p : Fin o.c.n, ∃ q : Fin o'.c.n, o'.c.batch q = o.c.batch p ∧
      ∀ d, |o'.c.pts q d - o.c.pts p d| < cs d) ∧
    (∀ (q : Fin o'.c.n) d, ∃ p p' : Fin o.c.n, o.c.batch p = o'.c.batch q ∧ o.c.batch p' = o'.c.batch q ∧
      o.c.pts p d ≤ o'.c.pts q d ∧ o'.c.pts q d ≤ o.c.pts p' d) := by
  cases hst with
  | ok l h c hl hnew hs hb =>
    have hsel := C28_sample_modes_partial h lower mode
    have hc := (hsel.2.1 ha _).mp hs
    simp only [Except.ok.injEq] at hc
    subst hc
    obtain ⟨e1, _, e3, _⟩ := new_pairs hnew
    obtain ⟨f, hf⟩ := C29_cell_average (⟨o.c, vecOf l, eps⟩ : Grid (k + 2) K) h.sample.B hv hposd heps
    have key : ∀ (c' : Cloud (Fin (k + 2) → K)), c' = cellAverage ⟨o.c, vecOf l, eps⟩ h.sample.B →
        (∀ p : Fin o.c.n, ∃ q : Fin c'.n, c'.batch q = o.c.batch p ∧
          ∀ d, |c'.pts q d - o.c.pts p d| < vecOf (D := k + 2) l d) ∧
        (∀ (q : Fin c'.n) d, ∃ p p' : Fin o.c.n, o.c.batch p = c'.batch q ∧ o.c.batch p' = c'.batch q ∧
          o.c.pts p d ≤ c'.pts q d ∧ c'.pts q d ≤ o.c.pts p' d) := by
      intro c' hc'
      subst hc'
      constructor
      · intro p
        refine ⟨f p, hf.batch p, fun d => ?_⟩
        have hF : (Finset.univ.filter (fun i => f i = f p)).Nonempty := ⟨p, by simp⟩
        have hn : (0 : K) < (Finset.univ.filter (fun i => f i = f p)).card := by exact_mod_cast hF.card_pos
        rw [hf.mean]
        have e1 : (∑ i ∈ Finset.univ.filter (fun i => f i = f p), o.c.pts i d) /
            ((Finset.univ.filter (fun i => f i = f p)).card : K) - o.c.pts p d =
            (∑ i ∈ Finset.univ.filter (fun i => f i = f p), (o.c.pts i d - o.c.pts p d)) /
            ((Finset.univ.filter (fun i => f i = f p)).card : K) := by
          rw [Finset.sum_sub_distrib, Finset.sum_const, nsmul_eq_mul]
          field_simp
        rw [e1, abs_div, abs_of_pos hn, div_lt_iff₀ hn]
        calc _ ≤ ∑ i ∈ Finset.univ.filter (fun i => f i = f p), |o.c.pts i d - o.c.pts p d| :=
              Finset.abs_sum_le_sum_abs _ _
          _ < ∑ _i ∈ Finset.univ.filter (fun i => f i = f p), vecOf (D := k + 2) l d := by
              apply Finset.sum_lt_sum_of_nonempty hF
              intro i hi
              exact cell_width hf hposd (Finset.mem_filter.1 hi).2 d
          _ = _ := by rw [Finset.sum_const, nsmul_eq_mul, mul_comm]
      · intro q d
        obtain ⟨p0, hp0⟩ := hf.surj q
        have hF : (Finset.univ.filter (fun i => f i = q)).Nonempty := ⟨p0, by simp [hp0]⟩
        have hn : (0 : K) < (Finset.univ.filter (fun i => f i = q)).card := by exact_mod_cast hF.card_pos
        obtain ⟨p, hp, hple⟩ := Finset.exists_min_image _ (fun i => o.c.pts i d) hF
        obtain ⟨p', hp', hple'⟩ := Finset.exists_max_image _ (fun i => o.c.pts i d) hF
        have b1 := hf.batch p
        rw [(Finset.mem_filter.1 hp).2] at b1
        have b2 := hf.batch p'
        rw [(Finset.mem_filter.1 hp').2] at b2
        refine ⟨p, p', b1.symm, b2.symm, ?_, ?_⟩
        · rw [hf.mean, le_div_iff₀ hn]
          have := Finset.card_nsmul_le_sum _ (fun i => o.c.pts i d) _ hple
          rw [nsmul_eq_mul] at this
          linarith
        · rw [hf.mean, div_le_iff₀ hn]
          have := Finset.sum_le_card_nsmul _ (fun i => o.c.pts i d) _ hple'
          rw [nsmul_eq_mul] at this
          linarith
    exact key _ (by rw [setBatchShape_c, e1]; rfl)

/-- **C118, cell averages.** Between any two levels, every point of the finer one
is, in every coordinate, closer than the sum of the cell sizes between them to a point of the
coarser one, of the same batch element. -/
theorem C118_average (dev : Device) (eps : K) (heps : 0 < eps)
    (lower : String → String) (mode : String) (hmode : lower mode ∈ ["average", "cell average", "cell_average"])
    (o : CloudObj (Fin (k + 2) → K)) (hv : o.c.Valid)
    (sizes : List (Arg K)) (H : Hier k K) (hH : HierNew dev eps lower mode o sizes (.ok H))
    (hpos : ∀ cs ∈ H.cellSizes, ∀ d, 0 < cs d)
    (i j : ℕ) (hij : i < j) (a b : CloudObj (Fin (k + 2) → K)) (ha : H.clouds[i]? = some a)
    (hb : H.clouds[j]? = some b) (p : Fin a.c.n) :
    ∃ q : Fin b.c.n, b.c.batch q = a.c.batch p ∧
      ∀ d, |b.c.pts q d - a.c.pts p d| < (((H.cellSizes.drop i).take (j - i)).map (fun cs => cs d)).sum := by
  obtain ⟨rest, e, hl, hc⟩ := hier_consecutive heps hv hH hpos
    (fun a cs b => ∀ p : Fin a.c.n, ∃ q : Fin b.c.n, b.c.batch q = a.c.batch p ∧
      ∀ d, |b.c.pts q d - a.c.pts p d| < cs d)
    (fun bs o a o' cs h hv hst hcs => (levelStep_average_cover heps hv hst (hpos cs hcs) hmode).1)
  rw [e] at ha hb
  have hsum : ∀ (l : List (Fin (k + 2) → K)) d, (l.map (fun cs => cs)).sum d = (l.map (fun cs => cs d)).sum := by
    intro l d
    induction l with
    | nil => rfl
    | cons x l ih => simp only [List.map_cons, List.sum_cons, Pi.add_apply, ih]
  have := consecutive_sum _ (fun (a : CloudObj (Fin (k + 2) → K)) (r : Fin (k + 2) → K) b =>
      ∀ p : Fin a.c.n, ∃ q : Fin b.c.n,
      b.c.batch q = a.c.batch p ∧ ∀ d, |b.c.pts q d - a.c.pts p d| < r d) (fun cs => cs)
    (fun _ _ _ h => h)
    (by
      intro a x b y c h1 h2 p
      obtain ⟨q, hq1, hq2⟩ := h1 p
      obtain ⟨q', hq1', hq2'⟩ := h2 q
      refine ⟨q', hq1'.trans hq1, fun d => ?_⟩
      have h3 := hq2 d
      have h4 := hq2' d
      rw [abs_lt] at h3 h4 ⊢
      simp only [Pi.add_apply]
      constructor <;> linarith [h3.1, h3.2, h4.1, h4.2]) o rest _ hl hc i j hij a b ha hb p
  simp only [hsum] at this
  exact this

/-- **C118, all levels stay inside the input**: in every coordinate a point of any
level lies between two points of the same batch element of every finer level. -/
theorem C118_inside (dev : Device) (eps : K) (heps : 0 < eps)
    (lower : String → String) (mode : String)
    (hmode : lower mode ∈ ["poisson", "poisson disk", "poisson_disk", "average", "cell average", "cell_average"])
    (o : CloudObj (Fin (k + 2) → K)) (hv : o.c.Valid)
    (sizes : List (Arg K)) (H : Hier k K) (hH : HierNew dev eps lower mode o sizes (.ok H))
    (hpos : ∀ cs ∈ H.cellSizes, ∀ d, 0 < cs d)
    (i j : ℕ) (hij : i < j) (a b : CloudObj (Fin (k + 2) → K)) (ha : H.clouds[i]? = some a)
    (hb : H.clouds[j]? = some b) (q : Fin b.c.n) (d : Fin (k + 2)) :
    ∃ p p' : Fin a.c.n, a.c.batch p = b.c.batch q ∧ a.c.batch p' = b.c.batch q ∧
      a.c.pts p d ≤ b.c.pts q d ∧ b.c.pts q d ≤ a.c.pts p' d := by
  let S : CloudObj (Fin (k + 2) → K) → ℕ → CloudObj (Fin (k + 2) → K) → Prop := fun a _ b =>
    ∀ (q : Fin b.c.n), ∃ p p' : Fin a.c.n, a.c.batch p = b.c.batch q ∧ a.c.batch p' = b.c.batch q ∧
      a.c.pts p d ≤ b.c.pts q d ∧ b.c.pts q d ≤ a.c.pts p' d
  obtain ⟨rest, e, hl, hc⟩ := hier_consecutive heps hv hH hpos (fun a _ b => S a 0 b)
    (by
      intro bs o a o' cs h hv hst hcs q
      by_cases hp : lower mode ∈ ["poisson", "poisson disk", "poisson_disk"]
      · obtain ⟨f, _, hf⟩ := (levelStep_spec heps hv hst (hpos cs hcs)).2 hp
        refine ⟨f q, f q, (hf q).2.symm, (hf q).2.symm, ?_, ?_⟩ <;> rw [(hf q).1]
      · refine (levelStep_average_cover heps hv hst (hpos cs hcs) ?_).2 q d
        simp only [List.mem_cons, List.not_mem_nil, or_false, not_or] at hp hmode ⊢
        tauto)
  rw [e] at ha hb
  exact consecutive_sum _ S (fun _ => 0) (fun _ _ _ h => h)
    (by
      intro a x b y c h1 h2 q
      obtain ⟨p, p', e1, e2, e3, e4⟩ := h2 q
      obtain ⟨r, _, f1, _, f3, _⟩ := h1 p
      obtain ⟨_, r', _, f2, _, f4⟩ := h1 p'
      exact ⟨r, r', f1.trans e1, f2.trans e2, f3.trans e3, e4.trans f4⟩) o rest _ hl hc i j hij a b ha hb q

/-- With one number per level, the cell sizes of the hierarchy are these numbers. -/
theorem hier_oneSize {dev : Device} {eps : K} {lower : String → String} {mode : String}
    {o : CloudObj (Fin (k + 2) → K)} {rs : List K} {H : Hier k K}
    (hH : HierNew dev eps lower mode o (rs.map oneSize) (.ok H)) :
    H.cellSizes = rs.map (fun r _ => r) := by
  rcases hH with ⟨ls, hls, he⟩ | ⟨e, _, he⟩
  swap
  · simp at he
  simp only [Except.ok.injEq] at he
  subst he
  show ls.map (·.2.1) = _
  clear * - hls
  generalize o.batchShape = bs at hls
  induction rs generalizing o ls with
  | nil =>
    cases hls
    rfl
  | cons r rs ih =>
    rw [List.map_cons] at hls
    generalize hR : (Except.ok ls : Except Err _) = R at hls
    cases hls with
    | fail _ _ _ e _ => cases hR
    | failLater _ _ _ _ _ _ e _ _ => cases hR
    | cons _ _ _ p' cs nh rest hstp hlp =>
      cases hR
      have hcs : cs = fun _ => r := by
        obtain ⟨l, hl, hvec⟩ := completeCellSizes_one (k := k) r
        cases hstp with
        | ok l' _ _ hl' _ _ _ =>
          rw [hl] at hl'
          cases hl'
          exact hvec
      rw [List.map_cons, List.map_cons, ih _ hlp, hcs]

/-- **C118, Poisson disk sampling with one radius per level**: every point of level
`i` is closer than `rs i + … + rs (j - 1)` to a point of level `j` of the same batch
element. -/
theorem C118_poisson_radii (dev : Device) (eps : K) (heps : 0 < eps)
    (lower : String → String) (mode : String) (hmode : lower mode ∈ ["poisson", "poisson disk", "poisson_disk"])
    (o : CloudObj (Fin (k + 2) → K)) (hv : o.c.Valid)
    (rs : List K) (hrs : ∀ r ∈ rs, 0 < r) (H : Hier k K)
    (hH : HierNew dev eps lower mode o (rs.map oneSize) (.ok H))
    (i j : ℕ) (hij : i < j) (a b : CloudObj (Fin (k + 2) → K)) (ha : H.clouds[i]? = some a)
    (hb : H.clouds[j]? = some b) (p : Fin a.c.n) :
    ∃ q : Fin b.c.n, b.c.batch q = a.c.batch p ∧
      normLt (fun d => b.c.pts q d - a.c.pts p d) ((rs.drop i).take (j - i)).sum := by
  have hc := hier_oneSize hH
  have := C118_poisson dev eps heps lower mode hmode o hv _ H hH
    (by rw [hc]; simpa using hrs) (by rw [hc]; simp) i j hij a b ha hb p
  rw [hc, ← List.map_drop, ← List.map_take, List.map_map] at this
  simpa [Function.comp_def] using this

/-- **C118, on the GPU**: the same for every hierarchy the CUDA kernels can build,
under every schedule. -/
theorem C118_gpu {Ws : ℕ} (hW : 0 < Ws) {eps : K} (heps : 0 < eps) {lower : String → String}
    {mode : String} (hmode : lower mode ∈ ["poisson", "poisson disk", "poisson_disk"])
    (o : CloudObj (Fin (k + 2) → K)) (ho : GpuStepOk Ws o.batchShape o.c) (rs : List K) (hrs : ∀ r ∈ rs, 0 < r)
    (res : Except Err (List (CloudObj (Fin (k + 2) → K))))
    (h : GpuLevels Ws eps lower mode o.batchShape o (rs.map oneSize) res) :
    ∃ os, res = .ok os ∧
      ∀ i j, i < j → ∀ a b, (o :: os)[i]? = some a → (o :: os)[j]? = some b → ∀ p : Fin a.c.n,
        ∃ q : Fin b.c.n, b.c.batch q = a.c.batch p ∧
          normLt (fun d => b.c.pts q d - a.c.pts p d) ((rs.drop i).take (j - i)).sum := by
  obtain ⟨os, H, h1, h2, h3⟩ := C110_poisson_hierarchy_partial hW heps hmode o ho rs hrs res h
  refine ⟨os, h1, fun i j hij a b ha hb p => ?_⟩
  rw [← h3] at ha hb
  exact C118_poisson_radii .gpu eps heps lower mode hmode o ho.valid rs hrs H h2 i j hij a b ha hb p

end

/-- The hypotheses hold for a hierarchy with two computed levels: every input point is
closer than 3 to a point of the last one. -/
example : ∃ H : Hier 0 ℚ, HierNew .gpu (1 / 10) id "poisson" (CloudObj.ofCloud exGrid.c)
    ([1, 2].map oneSize) (.ok H) ∧
    ∀ b, H.clouds[2]? = some b → ∀ p : Fin exGrid.c.n, ∃ q : Fin b.c.n, b.c.batch q = exGrid.c.batch p ∧
      normLt (fun d => b.c.pts q d - exGrid.c.pts p d) 3 := by
  obtain ⟨H, hH⟩ := (C31_constructor_succeeds (k := 0) (1 / 10 : ℚ) (by norm_num) id "poisson" (by simp)
    (CloudObj.ofCloud exGrid.c) (by decide) (by decide) (by intro sh h; cases h)
    ([1, 2].map oneSize) (by
      intro a ha
      simp only [List.map_cons, List.map_nil, List.mem_cons, List.not_mem_nil, or_false] at ha
      rcases ha with rfl | rfl <;> simp [oneSize])).1
  refine ⟨H, hH, fun b hb p => ?_⟩
  have h0 : H.clouds[0]? = some (CloudObj.ofCloud exGrid.c) := by
    rcases hH with ⟨ls, _, he⟩ | ⟨e, _, he⟩
    · simp only [Except.ok.injEq] at he
      subst he
      rfl
    · simp at he
  have := C118_poisson_radii .gpu (1 / 10) (by norm_num) id "poisson" (by simp) _ (by decide) _ (by simp) H hH
    0 2 (by norm_num) _ b h0 hb p
  norm_num at this
  exact this

end PC
