import Verif.Props.Hierarchy
import Verif.Props.Pooling

/-!
# Properties C95, C96: pooling and striding along a hierarchy
-/

set_option linter.unusedVariables false
set_option linter.unusedSectionVars false

namespace PC

section
variable {K : Type*} [Field K] [LinearOrder K] [IsStrictOrderedRing K] [FloorRing K] {k : ℕ}

/-- The points of one cell differ by less than the cell size in each coordinate. -/
theorem cell_width {D : ℕ} {g : Grid D K} {out : Cloud (Fin D → K)} {f : Fin g.c.n → Fin out.n}
    (hf : IsCellAverage g out f) (hcs : ∀ d, 0 < g.cs d) {i j : Fin g.c.n} (hij : f i = f j) (d : Fin D) :
    |g.c.pts i d - g.c.pts j d| < g.cs d := by
  obtain ⟨hb, hc⟩ := (hf.cells i j).1 hij
  cases hlo : aabbMin g.eps g.c (g.c.batch i) d with
  | none =>
    unfold aabbMin at hlo
    rw [Option.map_eq_none_iff, segMin_eq_none] at hlo
    exact absurd rfl (hlo i)
  | some lo =>
    have h1 := Int.abs_sub_lt_one_of_floor_eq_floor (hc d lo hlo)
    rw [← sub_div, abs_div, abs_of_pos (hcs d), div_lt_one (hcs d)] at h1
    convert h1 using 2
    ring

/-- The variance of numbers in an interval of width `w` is at most `w² / 4`. -/
theorem variance_le {ι : Type*} (F : Finset ι) (hF : F.Nonempty) (x : ι → K) (w : K)
    (hw : ∀ i ∈ F, ∀ j ∈ F, x i - x j ≤ w) :
    ∑ i ∈ F, (x i - (∑ j ∈ F, x j) / (F.card : K)) ^ 2 ≤ (F.card : K) * (w ^ 2 / 4) := by
  have hn : (0 : K) < F.card := by exact_mod_cast hF.card_pos
  obtain ⟨a, ha, hmin⟩ := Finset.exists_min_image F x hF
  obtain ⟨b, hb, hmax⟩ := Finset.exists_max_image F x hF
  set m := (∑ j ∈ F, x j) / (F.card : K) with hm
  have hsum : ∑ j ∈ F, x j = F.card * m := by
    rw [hm]; field_simp
  have h1 : ∑ i ∈ F, (x i - x a) * (x i - x b) ≤ 0 := by
    apply Finset.sum_nonpos
    intro i hi
    exact mul_nonpos_of_nonneg_of_nonpos (sub_nonneg.2 (hmin i hi)) (sub_nonpos.2 (hmax i hi))
  have h2 : ∑ i ∈ F, (x i - m) ^ 2 =
      ∑ i ∈ F, (x i - x a) * (x i - x b) + F.card * ((m - x a) * (x b - m)) := by
    have e : ∀ i ∈ F, (x i - m) ^ 2 = (x i - x a) * (x i - x b) + ((x a + x b - 2 * m) * x i + (m ^ 2 - x a * x b)) := by
      intro i _; ring
    rw [Finset.sum_congr rfl e, Finset.sum_add_distrib, Finset.sum_add_distrib, ← Finset.mul_sum, hsum,
      Finset.sum_const, nsmul_eq_mul]
    ring
  have hwn : 0 ≤ x b - x a := sub_nonneg.2 (hmin b hb)
  have hw2 : x b - x a ≤ w := hw b hb a ha
  have h3 : (m - x a) * (x b - m) ≤ w ^ 2 / 4 := by
    nlinarith [sq_nonneg (2 * m - x a - x b)]
  rw [h2]
  have := mul_le_mul_of_nonneg_left h3 hn.le
  linarith

/-- In up to four dimensions the average of the points of a cell has one of these
points within the cell size. -/
theorem cellAverage_near {D : ℕ} (hD : D ≤ 4) {g : Grid D K} {out : Cloud (Fin D → K)} {f : Fin g.c.n → Fin out.n}
    (hf : IsCellAverage g out f) (r : K) (hr : 0 < r) (hcs : ∀ d, g.cs d = r) (s : Fin out.n) :
    (nbrs g.c out r s).Nonempty := by
  have hpos : ∀ d, 0 < g.cs d := fun d => by rw [hcs]; exact hr
  set F := Finset.univ.filter (fun i => f i = s) with hFdef
  have hmem : ∀ i, i ∈ F ↔ f i = s := by intro i; simp [hFdef]
  have hF : F.Nonempty := by
    obtain ⟨i, hi⟩ := hf.surj s
    exact ⟨i, (hmem i).2 hi⟩
  have hn : (0 : K) < F.card := by exact_mod_cast hF.card_pos
  have hwd : ∀ d : Fin D, ∃ w, w < r ∧ 0 ≤ w ∧ ∀ i ∈ F, ∀ j ∈ F, g.c.pts i d - g.c.pts j d ≤ w := by
    intro d
    obtain ⟨⟨a, b⟩, hab, hmax⟩ := Finset.exists_max_image (F ×ˢ F) (fun p => g.c.pts p.1 d - g.c.pts p.2 d)
      (hF.product hF)
    rw [Finset.mem_product] at hab
    refine ⟨g.c.pts a d - g.c.pts b d, ?_, ?_, ?_⟩
    · have := cell_width hf hpos (((hmem a).1 hab.1).trans ((hmem b).1 hab.2).symm) d
      rw [hcs] at this
      exact lt_of_le_of_lt (le_abs_self _) this
    · have := hmax (a, a) (Finset.mem_product.2 ⟨hab.1, hab.1⟩)
      simpa using this
    · intro i hi j hj
      exact hmax (i, j) (Finset.mem_product.2 ⟨hi, hj⟩)
  choose w hw1 hw0 hw2 using hwd
  by_contra hne
  rw [Finset.not_nonempty_iff_eq_empty] at hne
  have hfar : ∀ i ∈ F, r * r ≤ ∑ d, (g.c.pts i d - out.pts s d) ^ 2 := by
    intro i hi
    by_contra hlt
    rw [not_le] at hlt
    have : i ∈ nbrs g.c out r s := by
      rw [mem_nbrs]
      refine ⟨?_, hr, ?_⟩
      · rw [← (hmem i).1 hi, hf.batch]
      · simpa only [sq] using hlt
    rw [hne] at this
    simp at this
  have h1 : (F.card : K) * (r * r) ≤ ∑ i ∈ F, ∑ d, (g.c.pts i d - out.pts s d) ^ 2 := by
    calc (F.card : K) * (r * r) = ∑ _i ∈ F, r * r := by rw [Finset.sum_const, nsmul_eq_mul]
      _ ≤ _ := Finset.sum_le_sum hfar
  have h2 : ∑ i ∈ F, ∑ d, (g.c.pts i d - out.pts s d) ^ 2 ≤ (F.card : K) * ∑ d, (w d) ^ 2 / 4 := by
    rw [Finset.sum_comm, Finset.mul_sum]
    apply Finset.sum_le_sum
    intro d _
    rw [hf.mean s d]
    exact variance_le F hF (fun i => g.c.pts i d) (w d) (hw2 d)
  have h3 : ∑ d, (w d) ^ 2 / 4 < r * r := by
    rcases Nat.eq_zero_or_pos D with h0 | h0
    · subst h0
      simp only [Finset.univ_eq_empty, Finset.sum_empty]
      exact mul_pos hr hr
    · have hlt : ∑ d, (w d) ^ 2 / 4 < ∑ _d : Fin D, r ^ 2 / 4 := by
        apply Finset.sum_lt_sum_of_nonempty
        · exact ⟨⟨0, h0⟩, Finset.mem_univ _⟩
        · intro d _
          have : (w d) ^ 2 < r ^ 2 := pow_lt_pow_left₀ (hw1 d) (hw0 d) two_ne_zero
          linarith
      rw [Finset.sum_const, Finset.card_univ, Fintype.card_fin, nsmul_eq_mul] at hlt
      have hD' : (D : K) ≤ 4 := by exact_mod_cast hD
      have : (D : K) * (r ^ 2 / 4) ≤ 4 * (r ^ 2 / 4) :=
        mul_le_mul_of_nonneg_right hD' (by positivity)
      calc _ < _ := hlt
        _ ≤ _ := this
        _ = r * r := by ring
  have h4 := mul_lt_mul_of_pos_left h3 hn
  exact absurd (h1.trans h2) (not_le.2 h4)

/-! ## C95 -/

theorem sub_near {c c' : Cloud (Fin (k + 2) → K)} (h : SubCloud c c') (r : K) (hr : 0 < r) (i : Fin c'.n) :
    (nbrs c c' r i).Nonempty := by
  obtain ⟨f, _, hf⟩ := h
  refine ⟨f i, ?_⟩
  rw [mem_nbrs]
  refine ⟨(hf i).2.symm, hr, ?_⟩
  rw [(hf i).1]
  simp only [sub_self, mul_zero, Finset.sum_const_zero]
  exact mul_pos hr hr

/-- One level: every point of the new level has a point of the old level within
the cell size. -/
theorem levelStep_near {dev : Device} {eps : K} (heps : 0 < eps) {lower : String → String}
    {mode : String} {bs : Option (List ℕ)} {o o' : CloudObj (Fin (k + 2) → K)} {a : Arg K}
    {cs : Fin (k + 2) → K} {h : Nbh k K} (hv : o.c.Valid)
    (hst : LevelStep dev eps lower mode bs o a (.ok (o', cs, h))) (hpos : 0 < cs 0) (hiso : ∀ d, cs d = cs 0)
    (hmode : k ≤ 2 ∨ lower mode ∈ ["poisson", "poisson disk", "poisson_disk"]) (i : Fin o'.c.n) :
    (nbrs o.c o'.c (cs 0) i).Nonempty := by
  have hposd : ∀ d, 0 < cs d := fun d => by rw [hiso]; exact hpos
  by_cases hp : lower mode ∈ ["poisson", "poisson disk", "poisson_disk"]
  · exact sub_near ((levelStep_spec heps hv hst hposd).2 hp) _ hpos i
  · have hk : k ≤ 2 := hmode.resolve_right hp
    cases hst with
    | ok l h c hl hnew hs hb =>
      have hsel := C28_sample_modes_partial h lower mode
      have ha : lower mode ∈ ["average", "cell average", "cell_average"] := by
        by_contra ha
        have hc := (hsel.2.2 (by
          simp only [List.mem_cons, List.not_mem_nil, or_false, not_or] at hp ha ⊢
          tauto) _).mp hs
        simp at hc
      have hc := (hsel.2.1 ha _).mp hs
      simp only [Except.ok.injEq] at hc
      subst hc
      obtain ⟨e1, _, e3, _⟩ := new_pairs hnew
      obtain ⟨f, hf⟩ := C29_cell_average (⟨o.c, vecOf l, eps⟩ : Grid (k + 2) K) h.sample.B hv hposd heps
      have key : ∀ (c' : Cloud (Fin (k + 2) → K)), c' = cellAverage ⟨o.c, vecOf l, eps⟩ h.sample.B → ∀ i : Fin c'.n,
          (nbrs o.c c' (vecOf (D := k + 2) l 0) i).Nonempty := by
        intro c' hc' i
        subst hc'
        exact cellAverage_near (by omega) hf (vecOf (D := k + 2) l 0) hpos hiso i
      exact key _ (by rw [setBatchShape_c, e1]; rfl) i

/-- Consecutive levels with the cell size that led from one to the other. -/
def Consecutive {β γ : Type*} (R : β → γ → β → Prop) : List β → List γ → Prop
  | a :: b :: as, c :: cs => R a c b ∧ Consecutive R (b :: as) cs
  | _, _ => True

theorem levels_consecutive {dev : Device} {eps : K} (heps : 0 < eps) {lower : String → String}
    {mode : String} {bs : Option (List ℕ)} {o : CloudObj (Fin (k + 2) → K)} {sizes : List (Arg K)}
    {ls : List (CloudObj (Fin (k + 2) → K) × (Fin (k + 2) → K) × Nbh k K)}
    (hls : Levels dev eps lower mode bs o sizes (.ok ls)) (hv : o.c.Valid)
    (hpos : ∀ cs ∈ ls.map (·.2.1), ∀ d, 0 < cs d)
    (R : CloudObj (Fin (k + 2) → K) → (Fin (k + 2) → K) → CloudObj (Fin (k + 2) → K) → Prop)
    (hR : ∀ o a o' cs h, o.c.Valid → LevelStep dev eps lower mode bs o a (.ok (o', cs, h)) →
      cs ∈ ls.map (·.2.1) → R o cs o') :
    Consecutive R (o :: ls.map (·.1)) (ls.map (·.2.1)) := by
  generalize hr : (Except.ok ls : Except Err _) = r at hls
  induction hls generalizing ls with
  | nil o =>
    simp only [Except.ok.injEq] at hr
    subst hr
    trivial
  | fail o a as e _ => simp at hr
  | failLater o a as o' cs h e _ _ => simp at hr
  | cons o a as o' cs h rest hst _ ih =>
    simp only [Except.ok.injEq] at hr
    subst hr
    have h1 := (levelStep_spec heps hv hst (hpos cs (by simp))).1.valid
    refine ⟨hR o a o' cs h hv hst (by simp), ?_⟩
    exact ih (ls := rest) h1 (fun c hc => hpos c (by simp only [List.map_cons, List.mem_cons]; exact Or.inr hc))
      (fun o a o' cs h hv hst hcs => hR o a o' cs h hv hst
        (by simp only [List.map_cons, List.mem_cons]; exact Or.inr hcs)) rfl

/-- **C95.** In a hierarchy with the same cell size in all dimensions, pooling
from a level to the next with the cell size as radius never pools over an empty
set: with Poisson disk sampling in any dimension, with cell averages in up to
four dimensions. -/
theorem C95_never_empty_partial (dev : Device) (eps : K) (heps : 0 < eps)
    (lower : String → String) (mode : String) (o : CloudObj (Fin (k + 2) → K)) (hv : o.c.Valid)
    (sizes : List (Arg K)) (H : Hier k K) (hH : HierNew dev eps lower mode o sizes (.ok H))
    (hpos : ∀ cs ∈ H.cellSizes, 0 < cs 0) (hiso : ∀ cs ∈ H.cellSizes, ∀ d, cs d = cs 0)
    (hmode : k ≤ 2 ∨ lower mode ∈ ["poisson", "poisson disk", "poisson_disk"]) :
    Consecutive (fun o cs o' => ∀ i, (nbrs o.c o'.c (cs 0) i).Nonempty) H.clouds H.cellSizes := by
  rcases hH with ⟨ls, hls, he⟩ | ⟨e, _, he⟩
  swap
  · simp at he
  simp only [Except.ok.injEq] at he
  subst he
  simp only at hpos hiso ⊢
  refine levels_consecutive heps hls hv (fun cs hcs d => by rw [hiso cs hcs]; exact hpos cs hcs) _ ?_
  intro o a o' cs h hv hst hcs i
  exact levelStep_near heps hv hst (hpos cs hcs) (hiso cs hcs) hmode i

/-- **C95, max pooling.** Hence the result of max pooling is a value of the pooled
features for every point and channel. -/
theorem C95_max_pooling_partial {dev dev' : Device} {eps eps' : K} (heps : 0 < eps) (heps' : 0 < eps')
    {lower : String → String} {mode : String} {bs : Option (List ℕ)} {o o' : CloudObj (Fin (k + 2) → K)} {a : Arg K}
    {cs : Fin (k + 2) → K} {h : Nbh k K} (hv : o.c.Valid)
    (hst : LevelStep dev eps lower mode bs o a (.ok (o', cs, h))) (hpos : 0 < cs 0) (hiso : ∀ d, cs d = cs 0)
    (hmode : k ≤ 2 ∨ lower mode ∈ ["poisson", "poisson disk", "poisson_disk"])
    (radius : RadiusArg K) (hr : poolRadius (k + 2) radius = .ok cs) (f : Fin o.c.n → ℕ → K)
    (out : Fin o'.c.n → ℕ → Option K) (hout : localPool .max dev' eps' o.c o'.c radius f = .ok out)
    (i : Fin o'.c.n) (ch : ℕ) : ∃ p x, out i ch = some x ∧ f p ch = x ∧ o.c.batch p = o'.c.batch i := by
  have hmax := C43_local_max dev' eps' o.c o'.c radius cs hr
    ⟨hv, hpos, fun d => (hiso d).ge, heps'⟩ f out hout i ch
  have hne := levelStep_near heps hv hst hpos hiso hmode i
  cases hx : out i ch with
  | none =>
    rw [hx] at hmax
    have : nbrs o.c o'.c (cs 0) i = ∅ := hmax
    rw [this] at hne
    simp at hne
  | some x =>
    rw [hx] at hmax
    obtain ⟨⟨p, hp, e⟩, _⟩ := hmax
    exact ⟨p, x, rfl, e, ((mem_nbrs _ _ _ _ _).1 hp).1⟩

/-- Two points near opposite corners of a five-dimensional cell. -/
abbrev corners5 : Grid 5 ℚ :=
  ⟨⟨2, ![fun _ => 0, fun _ => 98 / 100], ![0, 0], 1⟩, fun _ => 1, 1 / 100⟩

/-- **C95 is false** for cell averages in five dimensions. -/
theorem C95_never_empty_false : ¬ ∀ (g : Grid 5 ℚ), g.c.Valid → (∀ d, g.cs d = 1) → 0 < g.eps →
    ∀ i, (nbrs g.c (cellAverage g g.c.B) 1 i).Nonempty := by
  intro h
  have h1 := h corners5 (by decide) (fun _ => rfl) (by decide +kernel)
  have h2 : ¬ ∀ i, (nbrs corners5.c (cellAverage corners5 corners5.c.B) 1 i).Nonempty := by decide +kernel
  exact h2 h1

/-! ## C96 -/

/-- **C96, Poisson disk sampling**: every point of a level is within the radius of
a point of the next level, so it contributes to a strided layer with this radius. -/
theorem C96_poisson {dev : Device} {eps : K} (heps : 0 < eps) {lower : String → String}
    {mode : String} {bs : Option (List ℕ)} {o o' : CloudObj (Fin (k + 2) → K)} {a : Arg K}
    {cs : Fin (k + 2) → K} {h : Nbh k K} (hv : o.c.Valid)
    (hst : LevelStep dev eps lower mode bs o a (.ok (o', cs, h))) (hpos : 0 < cs 0) (hmin : ∀ d, cs 0 ≤ cs d)
    (hmode : lower mode ∈ ["poisson", "poisson disk", "poisson_disk"]) (p : Fin o.c.n) :
    ∃ i, p ∈ nbrs o.c o'.c (cs 0) i := by
  cases hst with
  | ok l h c hl hnew hs hb =>
    obtain ⟨out, ho, hc⟩ := ((C28_sample_modes_partial h lower mode).1 hmode _).mp hs
    simp only [Except.ok.injEq] at hc
    subst hc
    obtain ⟨e1, e2, e3, e4, _⟩ := new_pairs hnew
    have hreg : Regular h := by
      obtain ⟨g', r', s', q', nb'⟩ := h
      simp only at e1 e2
      subst e1 e2
      exact ⟨hv, hpos, hmin, rfl, heps⟩
    obtain ⟨i, hb, hlt⟩ := C26_poisson_covers dev _ _ h hnew hreg out ho p
    have key : ∀ (c' : Cloud (Fin (k + 2) → K)), c' = (poissonSample h out).1 → ∃ i, p ∈ nbrs o.c c' (vecOf (D := k + 2) l 0) i := by
      intro c' hc'
      subst hc'
      refine ⟨i, ?_⟩
      rw [mem_nbrs]
      refine ⟨hb.symm, hlt.1, ?_⟩
      convert hlt.2 using 2
      rename_i d
      ring
    exact key _ (by rw [setBatchShape_c]; rfl)

/-- **C96, cell averages, in part**: the average is within the cell size of each
point of its cell per coordinate, so every point is used when the radius is at
least `√D` times the cell size. -/
theorem C96_cell_average_partial {D : ℕ} (g : Grid D K) (B : ℕ) (hv : g.c.Valid) (r R : K) (hr : 0 < r)
    (hcs : ∀ d, g.cs d = r) (heps : 0 < g.eps) (hR : 0 < R) (hDR : (D : K) * (r * r) ≤ R * R) (p : Fin g.c.n) :
    ∃ i, p ∈ nbrs g.c (cellAverage g B) R i := by
  have hpos : ∀ d, 0 < g.cs d := fun d => by rw [hcs]; exact hr
  obtain ⟨f, hf⟩ := C29_cell_average g B hv hpos heps
  refine ⟨f p, ?_⟩
  rw [mem_nbrs]
  refine ⟨(hf.batch p).symm, hR, ?_⟩
  have hF : (Finset.univ.filter (fun i => f i = f p)).Nonempty := ⟨p, by simp⟩
  have hn : (0 : K) < (Finset.univ.filter (fun i => f i = f p)).card := by exact_mod_cast hF.card_pos
  have hd : ∀ d, |g.c.pts p d - (cellAverage g B).pts (f p) d| < r := by
    intro d
    rw [hf.mean]
    have e1 : g.c.pts p d - (∑ i ∈ Finset.univ.filter (fun i => f i = f p), g.c.pts i d) /
        ((Finset.univ.filter (fun i => f i = f p)).card : K) =
        (∑ i ∈ Finset.univ.filter (fun i => f i = f p), (g.c.pts p d - g.c.pts i d)) /
        ((Finset.univ.filter (fun i => f i = f p)).card : K) := by
      rw [Finset.sum_sub_distrib, Finset.sum_const, nsmul_eq_mul]
      field_simp
    rw [e1, abs_div, abs_of_pos hn, div_lt_iff₀ hn]
    calc _ ≤ ∑ i ∈ Finset.univ.filter (fun i => f i = f p), |g.c.pts p d - g.c.pts i d| :=
          Finset.abs_sum_le_sum_abs _ _
      _ < ∑ _i ∈ Finset.univ.filter (fun i => f i = f p), r := by
          apply Finset.sum_lt_sum_of_nonempty hF
          intro i hi
          have := cell_width hf hpos (Finset.mem_filter.1 hi).2.symm d
          rwa [hcs] at this
      _ = _ := by rw [Finset.sum_const, nsmul_eq_mul, mul_comm]
  have hsq : ∀ d, (g.c.pts p d - (cellAverage g B).pts (f p) d) * (g.c.pts p d - (cellAverage g B).pts (f p) d) < r * r := by
    intro d
    rw [← abs_mul_abs_self]
    exact mul_self_lt_mul_self (abs_nonneg _) (hd d)
  rcases Nat.eq_zero_or_pos D with h0 | h0
  · subst h0
    simp only [Finset.univ_eq_empty, Finset.sum_empty]
    exact mul_pos hR hR
  · refine lt_of_lt_of_le ?_ hDR
    have := Finset.sum_lt_sum_of_nonempty (s := (Finset.univ : Finset (Fin D))) ⟨⟨0, h0⟩, Finset.mem_univ _⟩
      (fun d _ => hsq d)
    rwa [Finset.sum_const, Finset.card_univ, Fintype.card_fin, nsmul_eq_mul] at this

/-- Four points in one corner of a cell, one near the opposite corner. -/
abbrev corner2 : Grid 2 ℚ :=
  ⟨⟨5, ![![0, 0], ![0, 0], ![0, 0], ![0, 0], ![95 / 100, 95 / 100]], ![0, 0, 0, 0, 0], 1⟩, fun _ => 1, 1 / 100⟩

/-- **C96 is false for cell averages** with the cell size as radius: the fifth
point is in no neighbourhood, so it has no influence on the next level's
features. -/
theorem C96_cell_average_false : ¬ ∀ (g : Grid 2 ℚ), g.c.Valid → (∀ d, g.cs d = 1) → 0 < g.eps →
    ∀ p, ∃ i, p ∈ nbrs g.c (cellAverage g g.c.B) 1 i := by
  intro h
  have h1 := h corner2 (by decide) (fun _ => rfl) (by decide +kernel)
  have h2 : ¬ ∀ p, ∃ i, p ∈ nbrs corner2.c (cellAverage corner2 corner2.c.B) 1 i := by decide +kernel
  exact h2 h1
end
end PC
