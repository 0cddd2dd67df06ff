import Verif.Props.Units
import Verif.Props.Nets2

/-!
# The unit of length does not matter: the ModelNet40 networks (C170)
-/

set_option linter.unusedVariables false
set_option linter.unusedSectionVars false

namespace PC

section
variable {k D : ℕ}

theorem newPadded_scale_sizes (shape : List ℕ) (V : ℕ) (points : List (List (Fin D → ℝ))) (sizes : List ℕ) (B s : _) :
    CloudObj.newPadded shape V (scaleShapes s points) (some sizes) (some B) =
      (CloudObj.newPadded shape V points (some sizes) (some B)).map (·.scale s) := by
  unfold CloudObj.newPadded
  simp only [Option.getD_some]
  by_cases hB : B ≠ shape.prod
  · rw [if_pos hB, if_pos hB]; rfl
  rw [if_neg hB, if_neg hB]
  have hfl := flattenRows_map (fun (p : Fin D → ℝ) d => s * p d) points sizes
  by_cases h : (repeatRange sizes).length = (flattenRows points sizes).length
  · have h' : (repeatRange sizes).length = (flattenRows (scaleShapes s points) sizes).length := by
      unfold scaleShapes
      rw [hfl, List.length_map]
      exact h
    rw [dif_pos h, dif_pos h']
    refine congrArg Except.ok ?_
    have : (⟨flattenRows (scaleShapes s points) sizes, repeatRange sizes, B⟩ : RawCloud _).toCloud h' =
        ((⟨flattenRows points sizes, repeatRange sizes, B⟩ : RawCloud _).toCloud h).scale s := by
      refine cloud_eq (h'.symm.trans h) (fun i => ?_) (fun i => rfl) rfl
      show (flattenRows (scaleShapes s points) sizes)[i.val]'_ = fun d => s * ((flattenRows points sizes)[i.val]'_) d
      have h3 : i.val < (flattenRows (scaleShapes s points) sizes).length := i.isLt
      have := List.getElem_of_eq hfl h3
      rw [List.getElem_map] at this
      exact this
    rw [this]
    rfl
  · have h' : ¬ (repeatRange sizes).length = (flattenRows (scaleShapes s points) sizes).length := by
      unfold scaleShapes
      rw [hfl, List.length_map]
      exact h
    rw [dif_neg h, dif_neg h']
    rfl

/-- A call of a network: the result on the padded batch in the new unit, given what the network does on the scaled levels. -/
theorem call_units {E : NetEnv} (hdev : E.dev = .gpu) (heps : 0 < E.eps) {e' : ℝ} (he' : 0 < e') {s : ℝ} (hs : 0 < s)
    {lower : String → String} {mode : String} (hmode : UnitsMode lower mode E.eps e' s) {V : ℕ} {rs : List ℝ} (hrs : ∀ r ∈ rs, 0 < r)
    {points : List (List (Fin (k + 2) → ℝ))} {sizes : List ℕ} (hP : PaddedOk V points sizes) (hne : ∀ s ∈ sizes, 0 < s) (hB : points ≠ [])
    {L L' : Hier k ℝ → Except Err (List (ℕ → ℝ))} {rows : List (ℕ → ℝ)}
    (hL : ∀ H H' o os, H.clouds = o :: os → (∀ x ∈ o :: os, x.c.Valid ∧ 0 < x.c.n ∧ x.c.B = o.c.B) →
      H'.clouds = o.scale s :: os.map (·.scale s) → L H = .ok rows → L' H' = .ok rows)
    (h : match CloudObj.newPadded [points.length] V points (some sizes) (some points.length) with
      | .error e => (.ok rows : Except Err (List (ℕ → ℝ))) = .error e
      | .ok o => (∃ e, HierNew E.dev E.eps lower mode o (rs.map oneSize) (.error e) ∧ (.ok rows : Except Err (List (ℕ → ℝ))) = .error e) ∨
        ∃ H, HierNew E.dev E.eps lower mode o (rs.map oneSize) (.ok H) ∧ .ok rows = L H) :
    match CloudObj.newPadded [(scaleShapes s points).length] V (scaleShapes s points) (some sizes) (some (scaleShapes s points).length) with
      | .error e => (.ok rows : Except Err (List (ℕ → ℝ))) = .error e
      | .ok o => (∃ e, HierNew E.dev e' lower mode o ((rs.map (s * ·)).map oneSize) (.error e) ∧
          (.ok rows : Except Err (List (ℕ → ℝ))) = .error e) ∨
        ∃ H, HierNew E.dev e' lower mode o ((rs.map (s * ·)).map oneSize) (.ok H) ∧ .ok rows = L' H := by
  obtain ⟨o, ho⟩ := newPadded_returns hP
  obtain ⟨_, p2, p3, p4, p5, _, p7, _, p8⟩ := newPadded_spec hP.len hP.block hP.size ho
  have hBpos : 0 < points.length := List.length_pos_iff.2 hB
  have hno := padded_noEmpty hP ho hne
  have hn : 0 < o.c.n := by
    obtain ⟨i, _⟩ := hno 0 (by omega)
    exact i.pos
  have hlen : (scaleShapes s points).length = points.length := List.length_map _
  rw [hlen, newPadded_scale_sizes]
  rw [ho] at h ⊢
  dsimp only [Except.map] at h ⊢
  rcases h with ⟨e, _, he⟩ | ⟨H, hH, hr⟩
  · cases he
  rw [hdev] at hH ⊢
  right
  obtain ⟨H', hH', hcl⟩ := C170_hierarchy heps he' hs hmode o p3 hn _ hrs H hH
  refine ⟨H', hH', ?_⟩
  have hgood : ∃ os, H.clouds = o :: os ∧ ∀ x ∈ o :: os, x.c.Valid ∧ 0 < x.c.n ∧ x.c.B = o.c.B := by
    rcases hH with ⟨ls, hl, he⟩ | ⟨e, _, he⟩
    · have he := Except.ok.inj he
      subst he
      obtain ⟨h1, _⟩ := levels_units heps he' hs hmode _ hrs o p3 hn ls hl
      refine ⟨_, rfl, fun x hx => ?_⟩
      rcases List.mem_cons.1 hx with rfl | hx
      · exact ⟨p3, hn, rfl⟩
      · obtain ⟨y, hy, rfl⟩ := List.mem_map.1 hx
        exact h1 y hy
    · cases he
  obtain ⟨os, hc, hgood⟩ := hgood
  rw [hc, List.map_cons] at hcl
  exact (hL H H' o os hc hgood hcl hr.symm).symm

/-! ### modelnet40.py -/

/-- Specification: the block with the convolution in the new unit. -/
noncomputable def NetBlock.inUnits (s : ℝ) (b : NetBlock D) : NetBlock D := { b with conv := b.conv.inUnits s }

/-- Specification: the network with all radii in the new unit. -/
noncomputable def Net40.inUnits (s : ℝ) (N : Net40 D) : Net40 D where
  init := N.init.inUnits s
  block0 := N.block0.inUnits s
  poolRadius0 := s * N.poolRadius0
  convRadius0 := s * N.convRadius0
  levels := N.levels.map fun l => ⟨l.strided.inUnits s, l.block.inUnits s, s * l.poolRadius, s * l.convRadius⟩
  head := N.head

/-- The argument of the skip connection in the new unit. -/
def RadiusUnits (s : ℝ) (b : Bool) (r r' : RadiusArg ℝ) : Prop :=
  (b = true ∧ ∃ x, 0 < x ∧ r = .vec [x] ∧ r' = .vec [s * x]) ∨ b = false

theorem NetBlock.run_units (E : NetEnv) (hdev : E.dev = .gpu) (heps : 0 < E.eps) {e' : ℝ} (he' : 0 < e') {b : NetBlock (k + 2)}
    (hL : b.conv.Ok) {cin cout : Cloud (Fin (k + 2) → ℝ)} {radius : ℝ} (hr : 0 < radius) (hv : cin.Valid) (hv' : cout.Valid)
    (hB : cout.B = cin.B) (hn : 0 < cin.n) (hn' : 0 < cout.n) {s : ℝ} (hs : 0 < s) {pr pr' : RadiusArg ℝ}
    (hp : RadiusUnits s b.strided pr pr') (f : Fin cin.n → ℕ → ℝ) {g : Fin cout.n → ℕ → ℝ}
    (h : b.run E cin cout radius pr f = .ok g) :
    (b.inUnits s).run { E with eps := e' } (cin.scale s) (cout.scale s) (s * radius) pr' f = .ok g := by
  have hpool : ∀ x, b.pool E cin cout pr f = .ok x →
      (b.inUnits s).pool { E with eps := e' } (cin.scale s) (cout.scale s) pr' f = .ok x := by
    intro x hx
    unfold NetBlock.pool at hx ⊢
    rcases hp with ⟨hst, r, hr, rfl, rfl⟩ | hst
    · rw [if_pos hst] at hx
      have hst' : (b.inUnits s).strided = true := hst
      rw [if_pos hst']
      obtain ⟨out', ho'⟩ := C44_returns .max e' (cin.scale s) (cout.scale s) (.vec [s * r]) (fun _ => s * r) rfl
        ⟨hv, mul_pos hs hr, fun _ => le_rfl, he'⟩ hn' (fun i => by show cout.batch i < cin.B; rw [← hB]; exact hv' i) f
      split at hx
      · cases hx
      rename_i out ho
      have h1 := fun c ch => C43_local_max E.dev E.eps cin cout (.vec [r]) (fun _ => r) rfl ⟨hv, hr, fun _ => le_rfl, heps⟩ f out ho c ch
      have h2 := fun c ch => C43_local_max .gpu e' (cin.scale s) (cout.scale s) (.vec [s * r]) (fun _ => s * r) rfl
        ⟨hv, mul_pos hs hr, fun _ => le_rfl, he'⟩ f out' ho' c ch
      have heq : out' = out := by
        funext c ch
        have := h2 c ch
        rw [show nbrs (cin.scale s) (cout.scale s) (s * r) c = nbrs cin cout r c from nbrs_scale cin cout r s hs c] at this
        exact this.unique (h1 c ch)
      subst heq
      have ho2 : localPool .max E.dev e' (cin.scale s) (cout.scale s) (.vec [s * r]) f = .ok out' := by rw [hdev]; exact ho'
      split
      · rename_i e he
        cases he.symm.trans ho2
      · rename_i out2 he
        cases Except.ok.inj (he.symm.trans ho2)
        exact hx
    · have hst' : ¬ b.strided = true := by simp [hst]
      have hst2 : ¬ (b.inUnits s).strided = true := hst'
      rw [if_neg hst'] at hx
      rw [if_neg hst2]
      by_cases hc : cout.n = cin.n
      · rw [dif_pos hc] at hx
        exact (dif_pos hc).trans hx
      · rw [dif_neg hc] at hx
        cases hx
  unfold NetBlock.run at h
  split at h
  · cases h
  rename_i r hr1
  split at h
  · cases h
  rename_i x hx
  have hc := NetConv.call_units E hdev heps he' hL hr hv hv' hB hn hn' hs (E.bnAct b.bn1 (b.down.apply (E.bnAct b.bn0 f))) hr1
  unfold NetBlock.run
  split
  · rename_i e he
    cases he.symm.trans hc
  rename_i r' he
  cases Except.ok.inj (he.symm.trans hc)
  split
  · rename_i e he2
    cases he2.symm.trans (hpool x hx)
  rename_i x' he2
  cases Except.ok.inj (he2.symm.trans (hpool x hx))
  exact h

theorem net40Loop_units (E : NetEnv) (hdev : E.dev = .gpu) (heps : 0 < E.eps) {e' : ℝ} (he' : 0 < e') {s : ℝ} (hs : 0 < s) (B : ℕ) :
    ∀ (levels : List (Level40 (k + 2)))
    (hl : ∀ l ∈ levels, l.strided.conv.Ok ∧ l.strided.strided = true ∧ l.block.conv.Ok ∧
      l.block.strided = false ∧ 0 < l.poolRadius ∧ 0 < l.convRadius)
    (os : List (CloudObj (Fin (k + 2) → ℝ))) (o : CloudObj (Fin (k + 2) → ℝ)) (f : Fin o.c.n → ℕ → ℝ)
    (ho : ∀ x ∈ o :: os, x.c.Valid ∧ 0 < x.c.n ∧ x.c.B = B)
    (p : CloudObj (Fin (k + 2) → ℝ)) (g : Fin p.c.n → ℕ → ℝ)
    (h : net40Loop E o f os levels = .ok ⟨p, g⟩),
    net40Loop { E with eps := e' } (o.scale s) f (os.map (·.scale s))
      (levels.map fun l => ⟨l.strided.inUnits s, l.block.inUnits s, s * l.poolRadius, s * l.convRadius⟩) = .ok ⟨p.scale s, g⟩ := by
  intro levels
  induction levels with
  | nil =>
    intro hl os o f ho p g h
    match os, h with
    | [], h =>
      cases h
      rfl
    | _ :: _, h => simp [net40Loop] at h
  | cons l ls ih =>
    intro hl os o f ho p g h
    match os, h with
    | [], h => simp [net40Loop] at h
    | o' :: os, h =>
      obtain ⟨a1, a2, a3⟩ := ho o (by simp)
      obtain ⟨b1, b2, b3⟩ := ho o' (by simp)
      obtain ⟨l1, l2, l3, l4, l5, l6⟩ := hl l (by simp)
      rw [net40Loop_cons] at h
      refine (net40Loop_cons { E with eps := e' } (o.scale s) f (o'.scale s) _ _ _).trans ?_
      cases hc : l.strided.run E o.c o'.c l.poolRadius (.vec [l.poolRadius]) f with
      | error e => rw [hc] at h; cases h
      | ok u =>
        rw [hc] at h
        dsimp only [Except.bind] at h
        have h1 := NetBlock.run_units E hdev heps he' l1 l5 a1 b1 (b3.trans a3.symm) a2 b2 hs
          (pr := .vec [l.poolRadius]) (pr' := .vec [s * l.poolRadius]) (Or.inl ⟨l2, _, l5, rfl, rfl⟩) f hc
        cases hd : l.block.run E o'.c o'.c l.convRadius (.vec []) u with
        | error e => rw [hd] at h; cases h
        | ok v =>
          rw [hd] at h
          have h2 := NetBlock.run_units E hdev heps he' l3 l6 b1 b1 rfl b2 b2 hs (pr := .vec []) (pr' := .vec []) (Or.inr l4) u hd
          refine (congrArg (Except.bind · _) h1).trans ?_
          dsimp only [Except.bind]
          have hi := ih (fun l hl' => hl l (by simp [hl'])) os o' v (fun x hx => ho x (List.mem_cons_of_mem _ hx)) p g h
          split
          · rename_i e he
            cases he.symm.trans h2
          · rename_i v' he
            cases Except.ok.inj (he.symm.trans h2)
            exact hi

theorem net40_units (E : NetEnv) (hdev : E.dev = .gpu) (heps : 0 < E.eps) {e' : ℝ} (he' : 0 < e') (N : Net40 (k + 2)) (hN : N.Ok) {s : ℝ}
    (lower : String → String) (mode : String) (hmode : UnitsMode lower mode E.eps e' s) {V : ℕ}
    {points : List (List (Fin (k + 2) → ℝ))} {sizes : List ℕ} (hP : PaddedOk V points sizes) (hne : ∀ s ∈ sizes, 0 < s) (hB : points ≠ [])
    (hs : 0 < s) (feats : List (List (ℕ → ℝ))) (rows : List (ℕ → ℝ))
    (h : N.Call E lower mode points.length V points feats sizes (.ok rows)) :
    (N.inUnits s).Call { E with eps := e' } lower mode points.length V (scaleShapes s points) feats sizes (.ok rows) := by
  have hrs : ∀ r ∈ N.poolRadius0 :: N.levels.map Level40.poolRadius, 0 < r := by
    intro r hr
    rcases List.mem_cons.1 hr with rfl | hr
    · exact hN.radius0.1
    · obtain ⟨l, hl, rfl⟩ := List.mem_map.1 hr
      exact (hN.levels l hl).2.2.2.2.1
  have hsz : (N.inUnits s).sizes = ((N.poolRadius0 :: N.levels.map Level40.poolRadius).map (s * ·)).map oneSize := by
    unfold Net40.sizes Net40.inUnits oneSize
    simp [List.map_map, Function.comp_def]
  have hlen : (scaleShapes s points).length = points.length := List.length_map _
  have := call_units (rows := rows) (L := fun H => N.logits E H feats)
    (L' := fun H => (N.inUnits s).logits { E with eps := e' } H feats) hdev heps he' hs hmode hrs hP hne hB ?_ h
  · unfold Net40.Call
    rw [hsz]
    rw [hlen] at this ⊢
    exact this
  intro H H' o os hc hgood hcl hr
  unfold Net40.logits at hr ⊢
  rw [hc] at hr
  rw [hcl]
  cases os with
  | nil => cases hr
  | cons o1 os =>
  rw [List.map_cons]
  dsimp only at hr ⊢
  have hi : net40Init (o1.scale s) feats = net40Init o1 feats := flattenFeatures_scale o1 s _
  rw [hi]
  cases hf : net40Init o1 feats with
  | error e => rw [hf] at hr; cases hr
  | ok f0 =>
    rw [hf] at hr
    dsimp only at hr ⊢
    obtain ⟨b1, b2, b3⟩ := hgood o1 (by simp)
    cases h1 : N.init.call E o1.c o1.c N.convRadius0 f0 with
    | error e => rw [h1] at hr; cases hr
    | ok f1 =>
      rw [h1] at hr
      dsimp only at hr
      have u1 := NetConv.call_units E hdev heps he' hN.init hN.radius0.2 b1 b1 rfl b2 b2 hs f0 h1
      split
      · rename_i e he
        cases he.symm.trans u1
      rename_i f1' he
      cases Except.ok.inj (he.symm.trans u1)
      cases h2 : N.block0.run E o1.c o1.c N.convRadius0 (.vec []) f1 with
      | error e => rw [h2] at hr; cases hr
      | ok f2 =>
        rw [h2] at hr
        dsimp only at hr
        have u2 := NetBlock.run_units E hdev heps he' hN.block0.1 hN.radius0.2 b1 b1 rfl b2 b2 hs (pr := .vec []) (pr' := .vec [])
          (Or.inr hN.block0.2) f1 h2
        split
        · rename_i e he
          cases he.symm.trans u2
        rename_i f2' he
        cases Except.ok.inj (he.symm.trans u2)
        cases hl : net40Loop E o1 f2 os N.levels with
        | error e => rw [hl] at hr; cases hr
        | ok x =>
          obtain ⟨p, g⟩ := x
          rw [hl] at hr
          have hu := net40Loop_units E hdev heps he' hs o.c.B N.levels hN.levels os o1 f2
            (fun x hx => hgood x (List.mem_cons_of_mem _ hx)) p g hl
          split
          · rename_i e he
            cases he.symm.trans hu
          · rename_i p' g' he
            cases Except.ok.inj (he.symm.trans hu)
            exact hr

theorem Net40.inUnits_ok {s : ℝ} (hs : 0 < s) {N : Net40 (k + 2)} (h : N.Ok) : (N.inUnits s).Ok := by
  refine ⟨NetConv.inUnits_ok h.init, ⟨NetConv.inUnits_ok h.block0.1, h.block0.2⟩, ⟨mul_pos hs h.radius0.1, mul_pos hs h.radius0.2⟩,
    fun l hl => ?_⟩
  obtain ⟨l', hl', rfl⟩ := List.mem_map.1 hl
  obtain ⟨a, b, c, d, e, f⟩ := h.levels l' hl'
  exact ⟨NetConv.inUnits_ok a, b, NetConv.inUnits_ok c, d, mul_pos hs e, mul_pos hs f⟩

theorem NetBlock.inUnits_back {s : ℝ} (hs : 0 < s) (b : NetBlock D) : (b.inUnits s).inUnits s⁻¹ = b := by
  unfold NetBlock.inUnits
  rw [NetConv.inUnits_back hs]

theorem Net40.inUnits_back {s : ℝ} (hs : 0 < s) (N : Net40 D) : (N.inUnits s).inUnits s⁻¹ = N := by
  obtain ⟨i, b, r1, r2, ls, hd⟩ := N
  unfold Net40.inUnits
  simp only [List.map_map, Function.comp_def, NetConv.inUnits_back hs, NetBlock.inUnits_back hs, inv_mul_cancel_left₀ hs.ne',
    Net40.mk.injEq, and_true, true_and]
  exact List.map_id' _

theorem UnitsMode.back {lower : String → String} {mode : String} {e e' s : ℝ} (hs : 0 < s) (h : UnitsMode lower mode e e' s) :
    UnitsMode lower mode e' e s⁻¹ := by
  rcases h with hm | ⟨hm, he⟩
  · exact Or.inl hm
  · exact Or.inr ⟨hm, by rw [he, inv_mul_cancel_left₀ hs.ne']⟩

theorem PaddedOk.scale {V : ℕ} {points : List (List (Fin D → ℝ))} {sizes : List ℕ} (h : PaddedOk V points sizes) (s : ℝ) :
    PaddedOk V (scaleShapes s points) sizes := by
  refine ⟨h.len.trans (List.length_map _).symm, fun p hp => ?_, h.size⟩
  obtain ⟨q, hq, rfl⟩ := List.mem_map.1 hp
  rw [List.length_map]
  exact h.block q hq

/-- **C170, the residual network**: with the points and all radii in another unit of length (and the first kernel layers of `PointConv`
divided by the factor) the network of the script has the same possible logits, in training and in evaluation.  With Poisson sampling
the border of the bounding boxes may have any value in the new unit. -/
theorem C170_residual (E : NetEnv) (hdev : E.dev = .gpu) (heps : 0 < E.eps) {e' : ℝ} (he' : 0 < e') (N : Net40 (k + 2)) (hN : N.Ok)
    (lower : String → String) (mode : String) {s : ℝ} (hmode : lower mode ∈ ["poisson", "poisson disk", "poisson_disk"] ∨
      (lower mode ∈ ["average", "cell average", "cell_average"] ∧ e' = s * E.eps)) {V : ℕ}
    {points : List (List (Fin (k + 2) → ℝ))} {sizes : List ℕ} (hP : PaddedOk V points sizes) (hne : ∀ s ∈ sizes, 0 < s) (hB : points ≠ [])
    (hs : 0 < s) (feats : List (List (ℕ → ℝ))) (rows : List (ℕ → ℝ)) :
    (N.inUnits s).Call { E with eps := e' } lower mode points.length V (scaleShapes s points) feats sizes (.ok rows) ↔
      N.Call E lower mode points.length V points feats sizes (.ok rows) := by
  constructor
  · intro h
    have hlen : (scaleShapes s points).length = points.length := List.length_map _
    rw [← hlen] at h
    have := net40_units { E with eps := e' } hdev he' heps (N.inUnits s) (Net40.inUnits_ok hs hN) lower mode
      (UnitsMode.back hs hmode) (hP.scale s) hne (by simpa [scaleShapes] using hB) (inv_pos.2 hs) feats rows h
    rw [Net40.inUnits_back hs, scaleShapes_back hs, hlen] at this
    exact this
  · exact net40_units E hdev heps he' N hN lower mode hmode hP hne hB hs feats rows

/-! ### modelnet40_small.py -/

/-- Specification: the network with all radii in the new unit. -/
noncomputable def NetSmall.inUnits (s : ℝ) (N : NetSmall D) : NetSmall D where
  levels := N.levels.map fun l => { l with conv := l.conv.inUnits s, sampleRadius := s * l.sampleRadius, convRadius := s * l.convRadius }
  last := N.last.inUnits s
  lastSampleRadius := s * N.lastSampleRadius
  lastConvRadius := s * N.lastConvRadius
  head := N.head

theorem netSmallLoop_single (E : NetEnv) (N : NetSmall (k + 2)) (o : CloudObj (Fin (k + 2) → ℝ)) (f : Fin o.c.n → ℕ → ℝ)
    (o' : CloudObj (Fin (k + 2) → ℝ)) : netSmallLoop E N o f [o'] [] =
      match N.last.call E o.c o'.c N.lastConvRadius f with
      | .error e => .error e
      | .ok g => .ok ⟨o'.c.n, g ∘ o'.c.sortedIndicesBatch⟩ := rfl

theorem netSmallLoop_units (E : NetEnv) (hdev : E.dev = .gpu) (heps : 0 < E.eps) {e' : ℝ} (he' : 0 < e') (N : NetSmall (k + 2))
    (hlast : N.last.Ok ∧ 0 < N.lastSampleRadius ∧ 0 < N.lastConvRadius) {s : ℝ} (hs : 0 < s) (B : ℕ) :
    ∀ (levels : List (LevelSmall (k + 2))) (hl : ∀ l ∈ levels, l.conv.Ok ∧ 0 < l.sampleRadius ∧ 0 < l.convRadius)
    (os : List (CloudObj (Fin (k + 2) → ℝ))) (o : CloudObj (Fin (k + 2) → ℝ)) (f : Fin o.c.n → ℕ → ℝ)
    (ho : ∀ x ∈ o :: os, x.c.Valid ∧ 0 < x.c.n ∧ x.c.B = B)
    (x : (n : ℕ) × (Fin n → ℕ → ℝ)) (h : netSmallLoop E N o f os levels = .ok x),
    netSmallLoop { E with eps := e' } (N.inUnits s) (o.scale s) f (os.map (·.scale s))
      (levels.map fun l => { l with conv := l.conv.inUnits s, sampleRadius := s * l.sampleRadius, convRadius := s * l.convRadius }) =
      .ok x := by
  intro levels
  induction levels with
  | nil =>
    intro hl os o f ho x h
    match os, h with
    | [], h => simp [netSmallLoop] at h
    | [o'], h =>
      obtain ⟨a1, a2, a3⟩ := ho o (by simp)
      obtain ⟨b1, b2, b3⟩ := ho o' (by simp)
      rw [netSmallLoop_single] at h
      refine (netSmallLoop_single { E with eps := e' } (N.inUnits s) (o.scale s) f (o'.scale s)).trans ?_
      cases hc : N.last.call E o.c o'.c N.lastConvRadius f with
      | error e => rw [hc] at h; cases h
      | ok u =>
        rw [hc] at h
        have := NetConv.call_units E hdev heps he' hlast.1 hlast.2.2 a1 b1 (b3.trans a3.symm) a2 b2 hs f hc
        split
        · rename_i e2 he
          cases he.symm.trans this
        · rename_i g' he
          cases Except.ok.inj (he.symm.trans this)
          exact h
    | _ :: _ :: _, h => simp [netSmallLoop] at h
  | cons l ls ih =>
    intro hl os o f ho x h
    match os, h with
    | [], h => simp [netSmallLoop] at h
    | o' :: os, h =>
      obtain ⟨a1, a2, a3⟩ := ho o (by simp)
      obtain ⟨b1, b2, b3⟩ := ho o' (by simp)
      obtain ⟨l1, l2, l3⟩ := hl l (by simp)
      rw [netSmallLoop_cons] at h
      refine (netSmallLoop_cons { E with eps := e' } (N.inUnits s) (o.scale s) (o'.scale s) f _ _ _).trans ?_
      cases hc : l.conv.call E o.c o'.c l.convRadius f with
      | error e => rw [hc] at h; cases h
      | ok u =>
        rw [hc] at h
        have := NetConv.call_units E hdev heps he' l1 l3 a1 b1 (b3.trans a3.symm) a2 b2 hs f hc
        have hi := ih (fun l hl' => hl l (by simp [hl'])) os o' (E.bnAct l.bn2 (l.lin.apply (E.bnAct l.bn1 u)))
          (fun x hx => ho x (List.mem_cons_of_mem _ hx)) x h
        split
        · rename_i e2 he
          cases he.symm.trans this
        · rename_i g' he
          cases Except.ok.inj (he.symm.trans this)
          exact hi

theorem netSmall_units (E : NetEnv) (hdev : E.dev = .gpu) (heps : 0 < E.eps) {e' : ℝ} (he' : 0 < e') (N : NetSmall (k + 2)) (hN : N.Ok)
    {s : ℝ} (lower : String → String) (mode : String) (hmode : UnitsMode lower mode E.eps e' s) {V : ℕ}
    {points : List (List (Fin (k + 2) → ℝ))} {sizes : List ℕ} (hP : PaddedOk V points sizes) (hne : ∀ s ∈ sizes, 0 < s) (hB : points ≠ [])
    (hs : 0 < s) (feats : List (List (ℕ → ℝ))) (rows : List (ℕ → ℝ))
    (h : N.Call E lower mode points.length V points feats sizes (.ok rows)) :
    (N.inUnits s).Call { E with eps := e' } lower mode points.length V (scaleShapes s points) feats sizes (.ok rows) := by
  have hrs : ∀ r ∈ N.levels.map LevelSmall.sampleRadius ++ [N.lastSampleRadius], 0 < r := by
    intro r hr
    rcases List.mem_append.1 hr with hr | hr
    · obtain ⟨l, hl, rfl⟩ := List.mem_map.1 hr
      exact (hN.levels l hl).2.1
    · rw [List.mem_singleton.1 hr]
      exact hN.last.2.1
  have hsz : (N.inUnits s).sizes = ((N.levels.map LevelSmall.sampleRadius ++ [N.lastSampleRadius]).map (s * ·)).map oneSize := by
    unfold NetSmall.sizes NetSmall.inUnits oneSize
    simp [List.map_map, Function.comp_def]
  have hlen : (scaleShapes s points).length = points.length := List.length_map _
  have := call_units (rows := rows) (L := fun H => N.logits E H feats)
    (L' := fun H => (N.inUnits s).logits { E with eps := e' } H feats) hdev heps he' hs hmode hrs hP hne hB ?_ h
  · unfold NetSmall.Call
    rw [hsz]
    rw [hlen] at this ⊢
    exact this
  intro H H' o os hc hgood hcl hr
  unfold NetSmall.logits at hr ⊢
  rw [hc] at hr
  rw [hcl]
  dsimp only at hr ⊢
  rw [flattenFeatures_scale]
  cases hf : (o.flattenFeatures feats).1 with
  | error e => rw [hf] at hr; cases hr
  | ok f0 =>
    rw [hf] at hr
    dsimp only at hr ⊢
    cases hl : netSmallLoop E N o f0 os N.levels with
    | error e => rw [hl] at hr; cases hr
    | ok x =>
      rw [hl] at hr
      have hu := netSmallLoop_units E hdev heps he' N hN.last hs o.c.B N.levels hN.levels os o f0 hgood x hl
      split
      · rename_i e he
        cases he.symm.trans hu
      · rename_i p' g' he
        cases Except.ok.inj (he.symm.trans hu)
        exact hr

theorem NetSmall.inUnits_ok {s : ℝ} (hs : 0 < s) {N : NetSmall (k + 2)} (h : N.Ok) : (N.inUnits s).Ok := by
  refine ⟨⟨NetConv.inUnits_ok h.last.1, mul_pos hs h.last.2.1, mul_pos hs h.last.2.2⟩, fun l hl => ?_⟩
  obtain ⟨l', hl', rfl⟩ := List.mem_map.1 hl
  obtain ⟨a, b, c⟩ := h.levels l' hl'
  exact ⟨NetConv.inUnits_ok a, mul_pos hs b, mul_pos hs c⟩

theorem NetSmall.inUnits_back {s : ℝ} (hs : 0 < s) (N : NetSmall D) : (N.inUnits s).inUnits s⁻¹ = N := by
  obtain ⟨ls, la, r1, r2, hd⟩ := N
  unfold NetSmall.inUnits
  simp only [List.map_map, Function.comp_def, NetConv.inUnits_back hs, inv_mul_cancel_left₀ hs.ne', NetSmall.mk.injEq, and_true]
  exact List.map_id' _

/-- **C170, the small network of the scripts**: the same for `modelnet40_small.py`. -/
theorem C170_small (E : NetEnv) (hdev : E.dev = .gpu) (heps : 0 < E.eps) {e' : ℝ} (he' : 0 < e') (N : NetSmall (k + 2)) (hN : N.Ok)
    (lower : String → String) (mode : String) {s : ℝ} (hmode : lower mode ∈ ["poisson", "poisson disk", "poisson_disk"] ∨
      (lower mode ∈ ["average", "cell average", "cell_average"] ∧ e' = s * E.eps)) {V : ℕ}
    {points : List (List (Fin (k + 2) → ℝ))} {sizes : List ℕ} (hP : PaddedOk V points sizes) (hne : ∀ s ∈ sizes, 0 < s) (hB : points ≠ [])
    (hs : 0 < s) (feats : List (List (ℕ → ℝ))) (rows : List (ℕ → ℝ)) :
    (N.inUnits s).Call { E with eps := e' } lower mode points.length V (scaleShapes s points) feats sizes (.ok rows) ↔
      N.Call E lower mode points.length V points feats sizes (.ok rows) := by
  constructor
  · intro h
    have hlen : (scaleShapes s points).length = points.length := List.length_map _
    rw [← hlen] at h
    have := netSmall_units { E with eps := e' } hdev he' heps (N.inUnits s) (NetSmall.inUnits_ok hs hN) lower mode
      (UnitsMode.back hs hmode) (hP.scale s) hne (by simpa [scaleShapes] using hB) (inv_pos.2 hs) feats rows h
    rw [NetSmall.inUnits_back hs, scaleShapes_back hs, hlen] at this
    exact this
  · exact netSmall_units E hdev heps he' N hN lower mode hmode hP hne hB hs feats rows

end

/-- The hypotheses are met: a padded batch of a shape of one point and a shape of two points. -/
example : PaddedOk 2 [[(![0, 0, 0] : Fin 3 → ℝ), ![0, 0, 0]], [![0, 0, 0], ![1, 0, 0]]] [1, 2] ∧ (∀ s ∈ [1, 2], 0 < s) := by
  refine ⟨⟨rfl, ?_, ?_⟩, ?_⟩ <;> intro x hx <;> simp at hx <;> rcases hx with rfl | rfl <;> simp

end PC
