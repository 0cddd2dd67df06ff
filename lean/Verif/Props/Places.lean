import Verif.Props.Repeat2

/-!
# C172: the residual network sees only which places a shape occupies

`modelnet40.py` convolves only sampled levels, and its input features are all equal. So its logits do not depend on how often, in which
order and with which padding the points of a shape are recorded, whatever convolution is used.
-/

set_option linter.unusedVariables false
set_option linter.unusedSectionVars false

namespace PC

variable {k : ℕ}

/-- Specification: the shapes of two padded batches occupy the same places. -/
def SameShapes {α : Type*} (points points' : List (List α)) (sizes sizes' : List ℕ) : Prop :=
  points'.length = points.length ∧
  ∀ b x, x ∈ (points'.getD b []).take (sizes'.getD b 0) ↔ x ∈ (points.getD b []).take (sizes.getD b 0)

theorem SameShapes.symm {α : Type*} {points points' : List (List α)} {sizes sizes' : List ℕ} (s : SameShapes points points' sizes sizes') :
    SameShapes points' points sizes' sizes :=
  ⟨s.1.symm, fun b x => (s.2 b x).symm⟩

theorem padded_places {V V' : ℕ} {points points' : List (List (Fin (k + 2) → ℝ))} {sizes sizes' : List ℕ} (hP : PaddedOk V points sizes)
    (hP' : PaddedOk V' points' sizes') (s : SameShapes points points' sizes sizes') {o o' : CloudObj (Fin (k + 2) → ℝ)}
    (ho : CloudObj.newPadded [points.length] V points (some sizes) (some points.length) = .ok o)
    (ho' : CloudObj.newPadded [points'.length] V' points' (some sizes') (some points'.length) = .ok o') : SamePlaces o.c o'.c := by
  obtain ⟨_, p2, p3, p4, p5, p6, p7, p8, p9⟩ := newPadded_spec hP.len hP.block hP.size ho
  obtain ⟨_, q2, q3, q4, q5, q6, q7, q8, q9⟩ := newPadded_spec hP'.len hP'.block hP'.size ho'
  have hm : ∀ (c : Cloud (Fin (k + 2) → ℝ)) (b : ℕ) (x : Fin (k + 2) → ℝ), x ∈ (c.members b).map c.pts ↔ ∃ i, c.pts i = x ∧ c.batch i = b := by
    intro c b x
    simp [Cloud.members, and_comm]
  have key : ∀ b x, (∃ j, o'.c.pts j = x ∧ o'.c.batch j = b) ↔ ∃ i, o.c.pts i = x ∧ o.c.batch i = b := by
    intro b x
    rw [← hm, ← hm, p9, q9]
    exact s.2 b x
  refine ⟨by rw [p2, q2, s.1], fun i => (key _ _).2 ⟨i, rfl, rfl⟩, fun j => ?_⟩
  obtain ⟨i, h1, h2⟩ := (key _ _).1 ⟨j, rfl, rfl⟩
  exact ⟨i, h1.symm, h2.symm⟩

/-- Constant features on the first sampled level. -/
theorem net40Init_const {E : NetEnv} (heps : 0 < E.eps) {N : Net40 (k + 2)} (hN : N.Ok) {dev : Device}
    {lower : String → String} {mode : String} {V : ℕ} {points : List (List (Fin (k + 2) → ℝ))} {sizes : List ℕ}
    (hP : PaddedOk V points sizes) (hne : ∀ s ∈ sizes, 0 < s) (hB : points ≠ []) {feats : List (List (ℕ → ℝ))}
    (hf : feats.length = points.length) (hfV : ∀ row ∈ feats, row.length = V) (v : ℕ → ℝ) (hc : ∀ row ∈ feats, ∀ x ∈ row, x = v)
    {o : CloudObj (Fin (k + 2) → ℝ)} (ho : CloudObj.newPadded [points.length] V points (some sizes) (some points.length) = .ok o)
    {H : Hier k ℝ} (hH : HierNew dev E.eps lower mode o N.sizes (.ok H)) :
    ∃ o1 os, H.clouds = o :: o1 :: os ∧ net40Init o1 feats = .ok (fun _ => v) := by
  obtain ⟨_, p2, p3, p4, _, _, _, _, p8⟩ := newPadded_spec hP.len hP.block hP.size ho
  have hBpos : 0 < points.length := List.length_pos_iff.2 hB
  have hno := padded_noEmpty hP ho hne
  obtain ⟨os, hcl, hlen, hos⟩ := hier_levelOk heps p3 hno (by omega) hH (net40_pos hN hH)
  cases os with
  | nil => simp [Net40.sizes] at hlen
  | cons o1 os =>
    refine ⟨o1, os, hcl, ?_⟩
    have h1 := hos o1 (by simp)
    have hle : feats.length ≤ o1.c.n := by
      rw [hf, ← p2, ← h1.1.batch, ← members_sum o1.c h1.1.valid]
      have : ((List.range o1.c.B).map (fun b => 1)).sum ≤
          ((List.range o1.c.B).map (fun b => (o1.c.members b).length)).sum := by
        apply List.sum_le_sum
        intro b hb
        rw [members_length]
        exact (members_pos b).2 (h1.1.noEmpty b (List.mem_range.1 hb))
      simpa using this
    obtain ⟨f0, e0⟩ := flattenFeatures_returns o1 h1.1.sizes h1.1.shape h1.1.valid h1.1.noEmpty V feats
      (by rw [h1.1.batch, p2, hf]) hfV (by
        intro b hb
        refine (h1.2 b).trans ?_
        rw [padded_countIn hP ho, List.getD_eq_getElem?_getD,
          List.getElem?_eq_getElem (by rw [hP.len, ← p2, ← h1.1.batch]; exact hb)]
        exact hP.size _ (List.getElem_mem _))
    have hv : f0 = fun _ => v := funext fun i => flattenFeatures_const o1 feats v hc f0 e0 i
    unfold net40Init
    rw [List.take_of_length_le hle, e0, hv]

/-- One direction of `C172_residual`. -/
theorem net40_places (E : NetEnv) (hdev : E.dev = .gpu) (heps : 0 < E.eps) (N : Net40 (k + 2)) (hN : N.Ok)
    (lower : String → String) (mode : String) (hmode : lower mode ∈ ["poisson", "poisson disk", "poisson_disk"]) {V V' : ℕ}
    {points points' : List (List (Fin (k + 2) → ℝ))} {sizes sizes' : List ℕ} (hP : PaddedOk V points sizes) (hP' : PaddedOk V' points' sizes')
    (hne : ∀ s ∈ sizes, 0 < s) (hne' : ∀ s ∈ sizes', 0 < s) (hB : points ≠ []) (s : SameShapes points points' sizes sizes')
    {feats feats' : List (List (ℕ → ℝ))} (v : ℕ → ℝ)
    (hf : feats.length = points.length) (hfV : ∀ row ∈ feats, row.length = V) (hc : ∀ row ∈ feats, ∀ x ∈ row, x = v)
    (hf' : feats'.length = points'.length) (hfV' : ∀ row ∈ feats', row.length = V') (hc' : ∀ row ∈ feats', ∀ x ∈ row, x = v)
    (rows : List (ℕ → ℝ)) (h : N.Call E lower mode points.length V points feats sizes (.ok rows)) :
    N.Call E lower mode points'.length V' points' feats' sizes' (.ok rows) := by
  obtain ⟨o, ho⟩ := newPadded_returns hP
  obtain ⟨o', ho'⟩ := newPadded_returns hP'
  obtain ⟨_, p2, p3, p4, p5, p6, p7, p8, p9⟩ := newPadded_spec hP.len hP.block hP.size ho
  obtain ⟨_, q2, q3, q4, q5, q6, q7, q8, q9⟩ := newPadded_spec hP'.len hP'.block hP'.size ho'
  have hB' : points' ≠ [] := by
    rw [← List.length_pos_iff, s.1]
    exact List.length_pos_iff.2 hB
  have hBpos : 0 < points'.length := List.length_pos_iff.2 hB'
  have hn' : 0 < o'.c.n := by
    obtain ⟨i, _⟩ := padded_noEmpty hP' ho' hne' 0 (by omega)
    exact i.pos
  obtain ⟨a, as, ha, hsz⟩ : ∃ a as, 0 < a ∧ N.sizes = oneSize a :: as := by
    unfold Net40.sizes oneSize
    exact ⟨_, _, hN.radius0.1, rfl⟩
  unfold Net40.Call at h ⊢
  rw [ho] at h
  rw [ho']
  dsimp only at h ⊢
  rcases h with ⟨e, _, he⟩ | ⟨H, hH, hr⟩
  · cases he
  right
  obtain ⟨o1, os, c1, i1⟩ := net40Init_const heps hN hP hne hB hf hfV v hc ho hH
  rw [hdev, hsz] at hH
  obtain ⟨H', os2, hH', c2, c3⟩ := C135_hierarchy heps hmode ha o o' (padded_places hP hP' s ho ho') (by rw [p4, q4, s.1]) p3 q3 hn' H hH
  rw [← hsz, ← hdev] at hH'
  refine ⟨H', hH', hr.trans ?_⟩
  obtain ⟨o2, os', d1, i2⟩ := net40Init_const heps hN hP' hne' hB' hf' hfV' v hc' ho' hH'
  rw [c1] at c2
  rw [← (List.cons.inj c2).2] at c3
  rw [c3] at d1
  obtain ⟨rfl, rfl⟩ := List.cons.inj (List.cons.inj d1).2
  unfold Net40.logits
  rw [c1, c3]
  dsimp only
  rw [i1, i2]

/-- **C172**: with Poisson sampling and equal features at all points, the possible logits of the residual network, in training and in
evaluation, depend only on the places that the shapes occupy. -/
theorem C172_residual (E : NetEnv) (hdev : E.dev = .gpu) (heps : 0 < E.eps) (N : Net40 (k + 2)) (hN : N.Ok)
    (lower : String → String) (mode : String) (hmode : lower mode ∈ ["poisson", "poisson disk", "poisson_disk"]) {V V' : ℕ}
    {points points' : List (List (Fin (k + 2) → ℝ))} {sizes sizes' : List ℕ} (hP : PaddedOk V points sizes) (hP' : PaddedOk V' points' sizes')
    (hne : ∀ s ∈ sizes, 0 < s) (hne' : ∀ s ∈ sizes', 0 < s) (hB : points ≠ []) (s : SameShapes points points' sizes sizes')
    {feats feats' : List (List (ℕ → ℝ))} (v : ℕ → ℝ)
    (hf : feats.length = points.length) (hfV : ∀ row ∈ feats, row.length = V) (hc : ∀ row ∈ feats, ∀ x ∈ row, x = v)
    (hf' : feats'.length = points'.length) (hfV' : ∀ row ∈ feats', row.length = V') (hc' : ∀ row ∈ feats', ∀ x ∈ row, x = v)
    (rows : List (ℕ → ℝ)) :
    N.Call E lower mode points'.length V' points' feats' sizes' (.ok rows) ↔
      N.Call E lower mode points.length V points feats sizes (.ok rows) := by
  have hB' : points' ≠ [] := by
    rw [← List.length_pos_iff, s.1]
    exact List.length_pos_iff.2 hB
  exact ⟨net40_places E hdev heps N hN lower mode hmode hP' hP hne' hne hB' s.symm v hf' hfV' hc' hf hfV hc rows,
    net40_places E hdev heps N hN lower mode hmode hP hP' hne hne' hB s v hf hfV hc hf' hfV' hc' rows⟩

/-! ### Cell averages -/

/-- Two points in one cell, the first recorded `m` times. -/
def placesRow (m : ℕ) : Cloud (Fin 2 → ℚ) :=
  ⟨m + 1, fun i d => if d.val = 0 ∧ i.val = m then 2 else 0, fun _ => 0, 1⟩

theorem placesRow_same : SamePlaces (placesRow 1) (placesRow 2) := by
  have h1 : ∀ i : Fin 2, ∃ j : Fin 3, ∀ d : Fin 2, (if d.val = 0 ∧ j.val = 2 then (2 : ℚ) else 0) = if d.val = 0 ∧ i.val = 1 then 2 else 0 := by
    decide +kernel
  have h2 : ∀ j : Fin 3, ∃ i : Fin 2, ∀ d : Fin 2, (if d.val = 0 ∧ j.val = 2 then (2 : ℚ) else 0) = if d.val = 0 ∧ i.val = 1 then 2 else 0 := by
    decide +kernel
  exact ⟨rfl, fun i => (h1 i).imp fun j h => ⟨funext h, rfl⟩, fun j => (h2 j).imp fun i h => ⟨funext h, rfl⟩⟩

/-- **C172, negation for cell averages**: a point recorded twice pulls the average of its cell towards it. -/
theorem C172_average_false : ¬ ∀ (c c' : Cloud (Fin 2 → ℚ)) (cs : Fin 2 → ℚ) (eps : ℚ), c.Valid → c'.Valid → (∀ d, 0 < cs d) → 0 < eps →
    SamePlaces c c' → SameCloud (cellAverage (⟨c, cs, eps⟩ : Grid 2 ℚ) c.B) (cellAverage (⟨c', cs, eps⟩ : Grid 2 ℚ) c'.B) := by
  intro hall
  obtain ⟨_, e, he⟩ := hall (placesRow 1) (placesRow 2) (fun _ => 10) (1 / 10 ^ 9) (fun _ => Nat.zero_lt_one) (fun _ => Nat.zero_lt_one)
    (fun _ => by norm_num) (by norm_num) placesRow_same
  have hn : (cellAverage (⟨placesRow 1, fun _ => 10, 1 / 10 ^ 9⟩ : Grid 2 ℚ) (placesRow 1).B).n = 1 := by decide +kernel
  have h1 : ∀ i, (cellAverage (⟨placesRow 1, fun _ => 10, 1 / 10 ^ 9⟩ : Grid 2 ℚ) (placesRow 1).B).pts i 0 = 1 := by decide +kernel
  have h2 : ∀ i, (cellAverage (⟨placesRow 2, fun _ => 10, 1 / 10 ^ 9⟩ : Grid 2 ℚ) (placesRow 2).B).pts i 0 = 2 / 3 := by decide +kernel
  have h3 := congrFun (he (Fin.cast hn.symm 0)).1 0
  rw [h1, h2] at h3
  norm_num at h3

/-- The hypotheses of `C172_residual` are met: two shapes, and the same shapes with some points recorded again and other padding. -/
example : ∃ rows, exNet40.Call exEnv id "poisson" 2 2 [[![0, 0], ![3, 0]], [![2, 5], ![7, 7]]] (List.replicate 2 (List.replicate 2 (fun _ => 1)))
      [2, 1] (.ok rows) ∧
    exNet40.Call exEnv id "poisson" 2 3 [[![3, 0], ![0, 0], ![3, 0]], [![2, 5], ![2, 5], ![0, 0]]]
      (List.replicate 2 (List.replicate 3 (fun _ => 1))) [3, 2] (.ok rows) := by
  have hP : PaddedOk 2 ([[![0, 0], ![3, 0]], [![2, 5], ![7, 7]]] : List (List (Fin 2 → ℝ))) [2, 1] := ⟨rfl, by simp, by simp⟩
  have hP' : PaddedOk 3 ([[![3, 0], ![0, 0], ![3, 0]], [![2, 5], ![2, 5], ![0, 0]]] : List (List (Fin 2 → ℝ))) [3, 2] :=
    ⟨rfl, by simp, by simp⟩
  have he : 0 < exEnv.eps := by norm_num [exEnv]
  obtain ⟨rows, h⟩ := (C97_returns exEnv rfl he exNet40 exNet40_ok id "poisson" (by simp) hP (by simp) (by simp)
    (feats := List.replicate 2 (List.replicate 2 (fun _ => 1))) rfl (by simp)).1
  refine ⟨rows, h, (C172_residual exEnv rfl he exNet40 exNet40_ok id "poisson" (by simp) hP hP' (by simp) (by simp) (by simp) ⟨rfl, ?_⟩
    (feats := List.replicate 2 (List.replicate 2 (fun _ => 1))) (feats' := List.replicate 2 (List.replicate 3 (fun _ => 1)))
    (fun _ => 1) rfl (by simp) (by simp) rfl (by simp) (by simp) rows).2 h⟩
  intro b x
  match b with
  | 0 => simp; tauto
  | 1 => simp
  | _ + 2 => simp

end PC
