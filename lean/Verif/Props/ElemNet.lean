import Verif.Props.ElemPoisson

/-!
# C174: the random logits of the shapes of a batch are independent of each other
-/

set_option linter.unusedVariables false
set_option linter.unusedSectionVars false

namespace PC

variable {k : ℕ}

/-- **C174, network of modelnet40.py**: at inference with Poisson sampling, let two batches share a shape. Every row of logits that is possible for it
in one batch is possible for it in the other, together with all rows that are possible there for the other shapes. -/
theorem C174_residual (E : NetEnv) (hE : E.training = false) (hdev : E.dev = .gpu) (heps : 0 < E.eps) (N : Net40 (k + 2)) (hN : N.Ok)
    (lower : String → String) (mode : String) (hm : lower mode ∈ ["poisson", "poisson disk", "poisson_disk"])
    {V V' : ℕ} {points points' : List (List (Fin (k + 2) → ℝ))} {sizes sizes' : List ℕ}
    (hP : PaddedOk V points sizes) (hP' : PaddedOk V' points' sizes') (hne : ∀ s ∈ sizes', 0 < s)
    {feats feats' : List (List (ℕ → ℝ))} (hf : feats'.length = points'.length) (hfV : ∀ row ∈ feats', row.length = V') (v : ℕ → ℝ)
    (hc : ∀ row ∈ feats, ∀ x ∈ row, x = v) (hc' : ∀ row ∈ feats', ∀ x ∈ row, x = v) {rows rows' : List (ℕ → ℝ)}
    (h : N.Call E lower mode points.length V points feats sizes (.ok rows))
    (h' : N.Call E lower mode points'.length V' points' feats' sizes' (.ok rows')) {b b' : ℕ} (hb : b < points.length)
    (hb' : b' < points'.length)
    (hperm : ((points.getD b []).take (sizes.getD b 0)).Perm ((points'.getD b' []).take (sizes'.getD b' 0))) :
    ∃ rows'', N.Call E lower mode points'.length V' points' feats' sizes' (.ok rows'') ∧ rows''[b']? = rows[b]? ∧
      ∀ b₂, b₂ ≠ b' → rows''[b₂]? = rows'[b₂]? := by
  have hret := (C97_returns E hdev heps N hN lower mode (by
    simp only [List.mem_cons, List.not_mem_nil, or_false] at hm ⊢
    tauto) hP' hne (by rintro rfl; simp at hb') hf hfV).2
  unfold Net40.Call at h h' hret ⊢
  split at h
  · cases h
  rename_i o ho
  split at h'
  · cases h'
  rename_i o' ho'
  rw [ho'] at hret
  rcases h with ⟨e, _, he⟩ | ⟨H, hH, h⟩
  · cases he
  rcases h' with ⟨e, _, he⟩ | ⟨H', hH', h'⟩
  · cases he
  obtain ⟨p1, p2, p3, _, _, _, _, _, p8⟩ := newPadded_spec hP.len hP.block hP.size ho
  obtain ⟨q1, q2, q3, q4, _, _, _, _, q8⟩ := newPadded_spec hP'.len hP'.block hP'.size ho'
  have hno := padded_noEmpty hP' ho' hne
  have hn : 0 < o'.c.n := by
    obtain ⟨i, _⟩ := hno 0 (by omega)
    exact i.pos
  rw [← p8, ← q8] at hperm
  obtain ⟨s⟩ := SameElem.ofPerm hperm
  obtain ⟨U, hU, u1, u2⟩ := C94_poisson_hierarchy heps hm (as := N.poolRadius0 :: N.levels.map Level40.poolRadius) (by
      intro a ha
      rcases List.mem_cons.1 ha with rfl | ha
      · exact hN.radius0.1
      · obtain ⟨l, hl, rfl⟩ := List.mem_map.1 ha
        exact (hN.levels l hl).2.2.2.2.1) p3 q3 hn (by
      intro sh hsh
      rw [q4, Option.some.injEq] at hsh
      rw [← hsh, q2]
      simp) s hH hH'
  have hU : HierNew E.dev E.eps lower mode o' N.sizes (.ok U) := by rw [hdev]; exact hU
  cases hl : N.logits E U feats' with
  | error e => exact absurd (Or.inr ⟨U, hU, hl.symm⟩) (hret e)
  | ok rows'' =>
    have k1 := C97_from_levels E hE heps N hN (hier_clouds heps p3 hH (net40_pos hN hH)) (hier_clouds heps q3 hU (net40_pos hN hU)) v hc hc'
      h.symm hl
    have k2 := C97_from_levels E hE heps N hN (hier_clouds heps q3 hH' (net40_pos hN hH')) (hier_clouds heps q3 hU (net40_pos hN hU)) v hc' hc'
      h'.symm hl
    have k3 := (C97_from_levels E hE heps N hN (hier_clouds heps q3 hU (net40_pos hN hU)) (hier_clouds heps q3 hU (net40_pos hN hU)) v hc' hc'
      hl hl).1
    refine ⟨rows'', Or.inr ⟨U, hU, hl.symm⟩, k1.2 b b' (by omega) (by omega) u1, fun b₂ hb₂ => ?_⟩
    by_cases h2 : b₂ < o'.c.B
    · exact k2.2 b₂ b₂ h2 h2 (u2 b₂ hb₂)
    · rw [List.getElem?_eq_none (by omega), List.getElem?_eq_none (by rw [k2.1]; omega)]

/-- The rows of the network of the tutorial from the levels: equal for shapes with the same points and features and the same points on all levels. -/
theorem netTut_from_levels (E : NetEnv) (hE : E.training = false) (heps : 0 < E.eps) (N : NetTut (k + 2)) (hN : N.Ok)
    {H H' : Hier k ℝ} {o1 o1' : CloudObj (Fin (k + 2) → ℝ)} {os os' : List (CloudObj (Fin (k + 2) → ℝ))} (hc1 : H.clouds = o1 :: os)
    (hc1' : H'.clouds = o1' :: os') {B B' : ℕ} (hcl : ∀ p ∈ H.clouds, p.c.Valid ∧ p.c.B = B)
    (hcl' : ∀ p ∈ H'.clouds, p.c.Valid ∧ p.c.B = B') {feats feats' : List (List (ℕ → ℝ))} {rows rows' : List (ℕ → ℝ)}
    (h : N.logits E H feats = .ok rows) (h' : N.logits E H' feats' = .ok rows') :
    rows.length = B ∧ ∀ b b', b < B → b' < B' →
      (∀ f f', (o1.flattenFeatures feats).1 = .ok f → (o1'.flattenFeatures feats').1 = .ok f' → ∃ s : SameElem o1.c o1'.c b b', s.Agree f f') →
      List.Forall₂ (fun o o' : CloudObj (Fin (k + 2) → ℝ) => Nonempty (SameElem o.c o'.c b b')) os os' →
      rows'[b']? = rows[b]? := by
  unfold NetTut.logits at h h'
  rw [hc1] at h
  rw [hc1'] at h'
  dsimp only at h h'
  split at h
  · cases h
  rename_i f ef
  split at h
  · cases h
  rename_i p g e1
  split at h'
  · cases h'
  rename_i f' ef'
  split at h'
  · cases h'
  rename_i p' g' e1'
  simp only [Except.ok.injEq] at h h'
  subst h h'
  have hpB := (hcl p (List.mem_of_getLast? (by rw [hc1]; exact netTutLoop_last E N _ _ _ _ _ _ e1))).2
  have hpB' := (hcl' p' (List.mem_of_getLast? (by rw [hc1']; exact netTutLoop_last E N _ _ _ _ _ _ e1'))).2
  refine ⟨by rw [List.length_ofFn]; exact hpB, ?_⟩
  intro b b' hb hb' hs hF
  obtain ⟨s, hs⟩ := hs f f' ef ef'
  obtain ⟨t, ht⟩ := netTutLoop_elem E hE heps N hN.last N.levels hN.levels os os' o1 o1' f f' s hs
    (fun q hq => (hcl q (by rw [hc1]; exact hq)).1) (fun q hq => (hcl' q (by rw [hc1']; exact hq)).1) hF p p' g g' e1 e1'
  have hbB : b < p.c.B := by omega
  have hbB' : b' < p'.c.B := by omega
  rw [List.getElem?_ofFn, List.getElem?_ofFn, dif_pos hbB, dif_pos hbB']
  congr 1
  refine headTut_elem E hE N.head _ _ ⟨b, hbB⟩ ⟨b', hbB'⟩ ?_
  funext ch
  rw [C94_global_pooling t .mean hbB hbB' g g' ht ch]

/-- **C174, network of the tutorial**: the same for any input features. -/
theorem C174_tutorial (E : NetEnv) (hE : E.training = false) (hdev : E.dev = .gpu) (heps : 0 < E.eps) (N : NetTut (k + 2)) (hN : N.Ok)
    (lower : String → String) (mode : String) (hm : lower mode ∈ ["poisson", "poisson disk", "poisson_disk"])
    {V V' : ℕ} {points points' : List (List (Fin (k + 2) → ℝ))}
    (hV : ∀ s ∈ points, s.length = V) (hV' : ∀ s ∈ points', s.length = V') (hVpos : 0 < V')
    {feats feats' : List (List (ℕ → ℝ))} (hf : feats.length = points.length) (hfV : ∀ row ∈ feats, row.length = V)
    (hf' : feats'.length = points'.length) (hfV' : ∀ row ∈ feats', row.length = V') {rows rows' : List (ℕ → ℝ)}
    (h : N.Call E lower mode V points feats (.ok rows)) (h' : N.Call E lower mode V' points' feats' (.ok rows')) {b b' : ℕ}
    (hb : b < points.length) (hb' : b' < points'.length)
    (hperm : ((points.getD b []).zip (feats.getD b [])).Perm ((points'.getD b' []).zip (feats'.getD b' []))) :
    ∃ rows'', N.Call E lower mode V' points' feats' (.ok rows'') ∧ rows''[b']? = rows[b]? ∧ ∀ b₂, b₂ ≠ b' → rows''[b₂]? = rows'[b₂]? := by
  have hret := (C129_returns E hdev heps N hN lower mode (by
    simp only [List.mem_cons, List.not_mem_nil, or_false] at hm ⊢
    tauto) hV' hVpos (by rintro rfl; simp at hb') hf' hfV').2
  unfold NetTut.Call at h h' hret ⊢
  rw [newPadded_noSizes] at h h' ⊢
  simp only [newPadded_noSizes] at hret
  split at h
  · cases h
  rename_i o ho
  split at h'
  · cases h'
  rename_i o' ho'
  rw [ho'] at hret
  rcases h with ⟨e, _, he⟩ | ⟨H, hH, h⟩
  · cases he
  rcases h' with ⟨e, _, he⟩ | ⟨H', hH', h'⟩
  · cases he
  have hP := paddedOk_full hV
  have hP' := paddedOk_full hV'
  obtain ⟨p1, p2, p3, _⟩ := newPadded_spec hP.len hP.block hP.size ho
  obtain ⟨q1, q2, q3, q4, _⟩ := newPadded_spec hP'.len hP'.block hP'.size ho'
  have hno := padded_noEmpty hP' ho' (fun s hs => by rw [List.eq_of_mem_replicate hs]; exact hVpos)
  have hn : 0 < o'.c.n := by
    obtain ⟨i, _⟩ := hno 0 (by omega)
    exact i.pos
  have htake : ∀ {α β : Type} {V : ℕ} {points : List (List α)} (feats : List (List β)) (b : ℕ), b < points.length →
      (∀ s ∈ points, s.length = V) → ((points.getD b []).zip (feats.getD b [])).take
        ((List.replicate points.length V).getD b 0) = (points.getD b []).zip (feats.getD b []) := by
    intro α β V points feats b hb hV
    rw [List.take_of_length_le]
    have hr : (List.replicate points.length V).getD b 0 = V := by
      rw [List.getD_eq_getElem?_getD, List.getElem?_replicate, if_pos hb, Option.getD_some]
    rw [List.length_zip, hr]
    refine (min_le_left _ _).trans (le_of_eq ?_)
    rw [List.getD_eq_getElem?_getD, List.getElem?_eq_getElem hb]
    exact hV _ (List.getElem_mem _)
  -- the shared element of the input, with its features
  have helem : ∀ f f', (o.flattenFeatures feats).1 = .ok f → (o'.flattenFeatures feats').1 = .ok f' →
      ∃ s : SameElem o.c o'.c b b', s.Agree f f' := by
    intro f f' ef ef'
    have a1 := padded_features hP ho hf hfV ef b
    have a2 := padded_features hP' ho' hf' hfV' ef' b'
    rw [zipWith_zip_getD _ _ _ hf, htake _ _ hb hV] at a1
    rw [zipWith_zip_getD _ _ _ hf', htake _ _ hb' hV'] at a2
    rw [← a1, ← a2] at hperm
    exact SameElem.ofPermFeatures hperm
  have hh := (C31_hierarchy_well_formed _ _ heps lower mode o p3 _ H hH (netTut_pos hN hH)).2.1
  have hh' := (C31_hierarchy_well_formed _ _ heps lower mode o' q3 _ H' hH' (netTut_pos hN hH')).2.1
  obtain ⟨os, hcs⟩ : ∃ os, H.clouds = o :: os := by
    cases hx : H.clouds with
    | nil => rw [hx] at hh; cases hh
    | cons a as => rw [hx] at hh; exact ⟨as, by rw [Option.some.inj hh]⟩
  obtain ⟨os', hcs'⟩ : ∃ os', H'.clouds = o' :: os' := by
    cases hx : H'.clouds with
    | nil => rw [hx] at hh'; cases hh'
    | cons a as => rw [hx] at hh'; exact ⟨as, by rw [Option.some.inj hh']⟩
  -- the calls have flattened their features
  have hflat : ∀ {o : CloudObj (Fin (k + 2) → ℝ)} {os} {H : Hier k ℝ} {feats rows}, H.clouds = o :: os → N.logits E H feats = .ok rows →
      ∃ f, (o.flattenFeatures feats).1 = .ok f := by
    intro o os H feats rows hc hl
    unfold NetTut.logits at hl
    rw [hc] at hl
    dsimp only at hl
    split at hl
    · cases hl
    · next f ef => exact ⟨f, ef⟩
  obtain ⟨f, ef⟩ := hflat hcs h.symm
  obtain ⟨f', ef'⟩ := hflat hcs' h'.symm
  obtain ⟨s, _⟩ := helem f f' ef ef'
  obtain ⟨U, hU, u1, u2⟩ := C94_poisson_hierarchy heps hm (as := N.levels.map LevelTut.sampleRadius ++ [N.lastSampleRadius]) (by
      intro a ha
      rcases List.mem_append.1 ha with ha | ha
      · obtain ⟨l, hl, rfl⟩ := List.mem_map.1 ha
        exact (hN.levels l hl).2.1
      · rw [List.mem_singleton.1 ha]
        exact hN.last.2.1) p3 q3 hn (by
      intro sh hsh
      rw [q4, Option.some.injEq] at hsh
      rw [← hsh, q2]
      simp) s hH hH'
  have hU : HierNew E.dev E.eps lower mode o' N.sizes (.ok U) := by rw [hdev]; exact hU
  have hhU := (C31_hierarchy_well_formed _ _ heps lower mode o' q3 _ U hU (netTut_pos hN hU)).2.1
  obtain ⟨us, hus⟩ : ∃ us, U.clouds = o' :: us := by
    cases hx : U.clouds with
    | nil => rw [hx] at hhU; cases hhU
    | cons a as => rw [hx] at hhU; exact ⟨as, by rw [Option.some.inj hhU]⟩
  cases hl : N.logits E U feats' with
  | error e => exact absurd (Or.inr ⟨U, hU, hl.symm⟩) (hret e)
  | ok rows'' =>
    have cH := hier_clouds heps p3 hH (netTut_pos hN hH)
    have cH' := hier_clouds heps q3 hH' (netTut_pos hN hH')
    have cU := hier_clouds heps q3 hU (netTut_pos hN hU)
    have k1 := netTut_from_levels E hE heps N hN hcs hus cH cU h.symm hl
    have k2 := netTut_from_levels E hE heps N hN hcs' hus cH' cU h'.symm hl
    have k3 := (netTut_from_levels E hE heps N hN hus hus cU cU hl hl).1
    rw [hcs, hus, List.forall₂_cons] at u1
    refine ⟨rows'', Or.inr ⟨U, hU, hl.symm⟩, k1.2 b b' (by omega) (by omega) helem u1.2, fun b₂ hb₂ => ?_⟩
    by_cases h2 : b₂ < o'.c.B
    · have u3 := u2 b₂ hb₂
      rw [hcs', hus, List.forall₂_cons] at u3
      refine k2.2 b₂ b₂ h2 h2 (fun x x' hx hx' => ?_) u3.2
      rw [hx] at hx'
      have : x = x' := Except.ok.inj hx'
      subst this
      exact ⟨SameElem.self _ b₂, fun _ => rfl⟩
    · rw [List.getElem?_eq_none (by omega), List.getElem?_eq_none (by rw [k2.1]; omega)]

/-! ### The possible logits of a batch are the combinations of those of its shapes -/

theorem product_of_mix {X : Type*} {B : ℕ} {R : List X → Prop} {S : ℕ → X → Prop} (hlen : ∀ rows, R rows → rows.length = B)
    (hex : ∃ rows, R rows) (hthen : ∀ rows, R rows → ∀ (b : ℕ) x, rows[b]? = some x → S b x)
    (hmix : ∀ rows, R rows → ∀ b < B, ∀ x, S b x → ∃ rows'' : List X, R rows'' ∧ rows''[b]? = some x ∧ ∀ b₂, b₂ ≠ b → rows''[b₂]? = rows[b₂]?)
    (rows : List X) : R rows ↔ rows.length = B ∧ ∀ (b : ℕ) x, rows[b]? = some x → S b x := by
  refine ⟨fun h => ⟨hlen rows h, hthen rows h⟩, ?_⟩
  rintro ⟨hl, hs⟩
  have key : ∀ m ≤ B, ∃ rows' : List X, R rows' ∧ ∀ b < m, rows'[b]? = rows[b]? := by
    intro m
    induction m with
    | zero =>
      intro _
      obtain ⟨r, hr⟩ := hex
      exact ⟨r, hr, fun b hb => absurd hb (Nat.not_lt_zero b)⟩
    | succ m ih =>
      intro hm
      obtain ⟨r, hr, hr2⟩ := ih (by omega)
      have e : rows[m]? = some (rows[m]'(by omega)) := List.getElem?_eq_getElem _
      obtain ⟨r', h1, h2, h3⟩ := hmix r hr m (by omega) _ (hs m _ e)
      refine ⟨r', h1, fun b hb => ?_⟩
      by_cases hbm : b = m
      · rw [hbm, h2, e]
      · rw [h3 b hbm]
        exact hr2 b (by omega)
  obtain ⟨r, hr, h⟩ := key B le_rfl
  have : r = rows := by
    refine List.ext_getElem? fun b => ?_
    by_cases hb : b < B
    · exact h b hb
    · rw [List.getElem?_eq_none (by rw [hlen r hr]; omega), List.getElem?_eq_none (by omega)]
  rw [← this]
  exact hr

theorem net40_rows (E : NetEnv) (hE : E.training = false) (heps : 0 < E.eps) {N : Net40 (k + 2)} (hN : N.Ok)
    {lower : String → String} {mode : String} {V : ℕ} {points : List (List (Fin (k + 2) → ℝ))} {sizes : List ℕ}
    (hP : PaddedOk V points sizes) {feats : List (List (ℕ → ℝ))} (v : ℕ → ℝ) (hc : ∀ row ∈ feats, ∀ x ∈ row, x = v) {rows : List (ℕ → ℝ)}
    (h : N.Call E lower mode points.length V points feats sizes (.ok rows)) : rows.length = points.length := by
  unfold Net40.Call at h
  split at h
  · cases h
  rename_i o ho
  rcases h with ⟨e, _, he⟩ | ⟨H, hH, h⟩
  · cases he
  obtain ⟨p1, p2, p3, _⟩ := newPadded_spec hP.len hP.block hP.size ho
  have cH := hier_clouds heps p3 hH (net40_pos hN hH)
  rw [(C97_from_levels E hE heps N hN cH cH v hc hc h.symm h.symm).1, p2]

/-- **C174, network of modelnet40.py**: at inference with Poisson sampling, the possible logits of a batch are exactly the combinations of rows that
are possible for its shapes, each processed alone. -/
theorem C174_residual_product (E : NetEnv) (hE : E.training = false) (hdev : E.dev = .gpu) (heps : 0 < E.eps) (N : Net40 (k + 2)) (hN : N.Ok)
    (lower : String → String) (mode : String) (hm : lower mode ∈ ["poisson", "poisson disk", "poisson_disk"])
    {V : ℕ} {points : List (List (Fin (k + 2) → ℝ))} {sizes : List ℕ} (hP : PaddedOk V points sizes) (hne : ∀ s ∈ sizes, 0 < s)
    (hB : points ≠ []) {feats : List (List (ℕ → ℝ))} (hf : feats.length = points.length) (hfV : ∀ row ∈ feats, row.length = V) (v : ℕ → ℝ)
    (hc : ∀ row ∈ feats, ∀ x ∈ row, x = v) (rows : List (ℕ → ℝ)) :
    N.Call E lower mode points.length V points feats sizes (.ok rows) ↔ rows.length = points.length ∧
      ∀ (b : ℕ) x, rows[b]? = some x → N.Call E lower mode 1 V [points.getD b []] [feats.getD b []] [sizes.getD b 0] (.ok [x]) := by
  have hm' : lower mode ∈ ["poisson", "poisson disk", "poisson_disk", "average", "cell average", "cell_average"] := by
    simp only [List.mem_cons, List.not_mem_nil, or_false] at hm ⊢
    tauto
  have g1 : ∀ b, b < points.length → points.getD b [] ∈ points := fun b hb => by
    rw [List.getD_eq_getElem?_getD, List.getElem?_eq_getElem hb]
    exact List.getElem_mem _
  have g2 : ∀ b, b < points.length → sizes.getD b 0 ∈ sizes := fun b hb => by
    rw [List.getD_eq_getElem?_getD, List.getElem?_eq_getElem (by rw [hP.len]; exact hb)]
    exact List.getElem_mem _
  have g3 : ∀ b, b < points.length → feats.getD b [] ∈ feats := fun b hb => by
    rw [List.getD_eq_getElem?_getD, List.getElem?_eq_getElem (by omega)]
    exact List.getElem_mem _
  have hP1 : ∀ b, b < points.length → PaddedOk V [points.getD b []] [sizes.getD b 0] := fun b hb =>
    ⟨rfl, fun x hx => by rw [List.mem_singleton.1 hx]; exact hP.block _ (g1 b hb), fun x hx => by
      rw [List.mem_singleton.1 hx]; exact hP.size _ (g2 b hb)⟩
  have hne1 : ∀ b, b < points.length → ∀ s ∈ [sizes.getD b 0], 0 < s := fun b hb s hs => by
    rw [List.mem_singleton.1 hs]; exact hne _ (g2 b hb)
  have hc1 : ∀ b, b < points.length → ∀ row ∈ [feats.getD b []], ∀ x ∈ row, x = v := fun b hb row hrow x hx => by
    rw [List.mem_singleton.1 hrow] at hx; exact hc _ (g3 b hb) x hx
  have hfV1 : ∀ b, b < points.length → ∀ row ∈ [feats.getD b []], row.length = V := fun b hb row hrow => by
    rw [List.mem_singleton.1 hrow]; exact hfV _ (g3 b hb)
  refine product_of_mix (R := fun rows => N.Call E lower mode points.length V points feats sizes (.ok rows))
    (S := fun b x => N.Call E lower mode 1 V [points.getD b []] [feats.getD b []] [sizes.getD b 0] (.ok [x]))
    (fun rows h => net40_rows E hE heps hN hP v hc h) (C97_returns E hdev heps N hN lower mode hm' hP hne hB hf hfV).1 ?_ ?_ rows
  · intro rows h b x hx
    have hb : b < points.length := by
      rw [← net40_rows E hE heps hN hP v hc h]
      exact (List.getElem?_eq_some_iff.1 hx).1
    obtain ⟨r0, h0⟩ := (C97_returns E hdev heps N hN lower mode hm' (hP1 b hb) (hne1 b hb) (List.cons_ne_nil _ _) rfl (hfV1 b hb)).1
    obtain ⟨r, h1, h2, _⟩ := C174_residual E hE hdev heps N hN lower mode hm hP (hP1 b hb) (hne1 b hb) rfl (hfV1 b hb) v hc (hc1 b hb) h h0
      hb (b' := 0) Nat.one_pos (List.Perm.refl _)
    have hr : r.length = 1 := net40_rows E hE heps hN (hP1 b hb) v (hc1 b hb) h1
    obtain ⟨y, rfl⟩ := List.length_eq_one_iff.1 hr
    rw [hx] at h2
    have : y = x := by simpa using h2
    subst this
    exact h1
  · intro rows h b hb x hx
    obtain ⟨r, h1, h2, h3⟩ := C174_residual E hE hdev heps N hN lower mode hm (hP1 b hb) hP hne hf hfV v (hc1 b hb) hc hx h
      (b := 0) Nat.one_pos hb (List.Perm.refl _)
    exact ⟨r, h1, h2, h3⟩

/-- **C174, network of the tutorial**: the same for any input features. -/
theorem C174_tutorial_product (E : NetEnv) (hE : E.training = false) (hdev : E.dev = .gpu) (heps : 0 < E.eps) (N : NetTut (k + 2)) (hN : N.Ok)
    (lower : String → String) (mode : String) (hm : lower mode ∈ ["poisson", "poisson disk", "poisson_disk"])
    {V : ℕ} {points : List (List (Fin (k + 2) → ℝ))} (hV : ∀ s ∈ points, s.length = V) (hVpos : 0 < V) (hB : points ≠ [])
    {feats : List (List (ℕ → ℝ))} (hf : feats.length = points.length) (hfV : ∀ row ∈ feats, row.length = V) (rows : List (ℕ → ℝ)) :
    N.Call E lower mode V points feats (.ok rows) ↔ rows.length = points.length ∧
      ∀ (b : ℕ) x, rows[b]? = some x → N.Call E lower mode V [points.getD b []] [feats.getD b []] (.ok [x]) := by
  have hm' : lower mode ∈ ["poisson", "poisson disk", "poisson_disk", "average", "cell average", "cell_average"] := by
    simp only [List.mem_cons, List.not_mem_nil, or_false] at hm ⊢
    tauto
  have g1 : ∀ b, b < points.length → points.getD b [] ∈ points := fun b hb => by
    rw [List.getD_eq_getElem?_getD, List.getElem?_eq_getElem hb]
    exact List.getElem_mem _
  have g3 : ∀ b, b < points.length → feats.getD b [] ∈ feats := fun b hb => by
    rw [List.getD_eq_getElem?_getD, List.getElem?_eq_getElem (by omega)]
    exact List.getElem_mem _
  have hV1 : ∀ b, b < points.length → ∀ s ∈ [points.getD b []], s.length = V := fun b hb s hs => by
    rw [List.mem_singleton.1 hs]; exact hV _ (g1 b hb)
  have hfV1 : ∀ b, b < points.length → ∀ row ∈ [feats.getD b []], row.length = V := fun b hb row hrow => by
    rw [List.mem_singleton.1 hrow]; exact hfV _ (g3 b hb)
  refine product_of_mix (R := fun rows => N.Call E lower mode V points feats (.ok rows))
    (S := fun b x => N.Call E lower mode V [points.getD b []] [feats.getD b []] (.ok [x]))
    (fun rows h => C129_one_row_per_shape E heps N hN lower mode hV h) (C129_returns E hdev heps N hN lower mode hm' hV hVpos hB hf hfV).1 ?_ ?_ rows
  · intro rows h b x hx
    have hb : b < points.length := by
      rw [← C129_one_row_per_shape E heps N hN lower mode hV h]
      exact (List.getElem?_eq_some_iff.1 hx).1
    obtain ⟨r0, h0⟩ := (C129_returns E hdev heps N hN lower mode hm' (hV1 b hb) hVpos (List.cons_ne_nil _ _) rfl (hfV1 b hb)).1
    obtain ⟨r, h1, h2, _⟩ := C174_tutorial E hE hdev heps N hN lower mode hm hV (hV1 b hb) hVpos hf hfV rfl (hfV1 b hb) h h0
      hb (b' := 0) Nat.one_pos (List.Perm.refl _)
    have hr : r.length = 1 := C129_one_row_per_shape E heps N hN lower mode (hV1 b hb) h1
    obtain ⟨y, rfl⟩ := List.length_eq_one_iff.1 hr
    rw [hx] at h2
    have : y = x := by simpa using h2
    subst this
    exact h1
  · intro rows h b hb x hx
    obtain ⟨r, h1, h2, h3⟩ := C174_tutorial E hE hdev heps N hN lower mode hm (hV1 b hb) hV hVpos rfl (hfV1 b hb) hf hfV hx h
      (b := 0) Nat.one_pos hb (List.Perm.refl _)
    exact ⟨r, h1, h2, h3⟩

/-- Two shapes with different numbers of points: logits of the batch exist, and their rows are possible for the shapes alone. -/
example : ∃ x y, exNet40.Call exEnv id "poisson" 2 2 [[![0, 0], ![3, 0]], [![2, 5], ![7, 7]]] (List.replicate 2 (List.replicate 2 (fun _ => 1)))
      [2, 1] (.ok [x, y]) ∧
    exNet40.Call exEnv id "poisson" 1 2 [[![0, 0], ![3, 0]]] [List.replicate 2 (fun _ => 1)] [2] (.ok [x]) ∧
    exNet40.Call exEnv id "poisson" 1 2 [[![2, 5], ![7, 7]]] [List.replicate 2 (fun _ => 1)] [1] (.ok [y]) := by
  have hP : PaddedOk 2 ([[![0, 0], ![3, 0]], [![2, 5], ![7, 7]]] : List (List (Fin 2 → ℝ))) [2, 1] := ⟨rfl, by simp, by simp⟩
  have he : 0 < exEnv.eps := by norm_num [exEnv]
  obtain ⟨rows, h⟩ := (C97_returns exEnv rfl he exNet40 exNet40_ok id "poisson" (by simp) hP (by simp) (by simp)
    (feats := List.replicate 2 (List.replicate 2 (fun _ => 1))) rfl (by simp)).1
  obtain ⟨h1, h2⟩ := (C174_residual_product exEnv rfl rfl he exNet40 exNet40_ok id "poisson" (by simp) hP (by simp) (by simp)
    (feats := List.replicate 2 (List.replicate 2 (fun _ => 1))) rfl (by simp) (fun _ => 1) (by simp) rows).1 h
  obtain ⟨x, y, rfl⟩ := List.length_eq_two.1 h1
  exact ⟨x, y, h, h2 0 x rfl, h2 1 y rfl⟩

/-- The same for the network of the tutorial. -/
example : ∃ x y, exTut.Call exEnv id "poisson" 2 [[![0, 0], ![3, 0]], [![2, 5], ![7, 7]]] [[fun _ => 1, fun _ => 2], [fun _ => 3, fun _ => 4]] (.ok [x, y]) ∧
    exTut.Call exEnv id "poisson" 2 [[![0, 0], ![3, 0]]] [[fun _ => 1, fun _ => 2]] (.ok [x]) ∧
    exTut.Call exEnv id "poisson" 2 [[![2, 5], ![7, 7]]] [[fun _ => 3, fun _ => 4]] (.ok [y]) := by
  have hV : ∀ s ∈ ([[![0, 0], ![3, 0]], [![2, 5], ![7, 7]]] : List (List (Fin 2 → ℝ))), s.length = 2 := by simp
  have he : 0 < exEnv.eps := by norm_num [exEnv]
  obtain ⟨rows, h⟩ := (C129_returns exEnv rfl he exTut exTut_ok id "poisson" (by simp) hV (by simp) (by simp)
    (feats := [[fun _ => 1, fun _ => 2], [fun _ => 3, fun _ => 4]]) rfl (by simp)).1
  obtain ⟨h1, h2⟩ := (C174_tutorial_product exEnv rfl rfl he exTut exTut_ok id "poisson" (by simp) hV (by simp) (by simp)
    (feats := [[fun _ => 1, fun _ => 2], [fun _ => 3, fun _ => 4]]) rfl (by simp) rows).1 h
  obtain ⟨x, y, rfl⟩ := List.length_eq_two.1 h1
  exact ⟨x, y, h, h2 0 x rfl, h2 1 y rfl⟩

end PC
