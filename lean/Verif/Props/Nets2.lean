import Verif.Props.Nets

/-!
# Property C98: the small network (modelnet40_small.py)
-/

set_option linter.unusedVariables false
set_option linter.unusedSectionVars false

namespace PC

section
variable {k : ℕ}

/-- The network as built by `mymodel.__init__` of modelnet40_small.py with
positive radii. -/
structure NetSmall.Ok (N : NetSmall (k + 2)) : Prop where
  last : N.last.Ok ∧ 0 < N.lastSampleRadius ∧ 0 < N.lastConvRadius
  levels : ∀ l ∈ N.levels, l.conv.Ok ∧ 0 < l.sampleRadius ∧ 0 < l.convRadius

/-- Specification: every batch element has exactly one point. -/
def OnePerElement {α : Type*} (c : Cloud α) : Prop := ∀ b < c.B, c.countIn b = 1

theorem sorted_one {α : Type*} (c : Cloud α) (hv : c.Valid) (h1 : OnePerElement c) :
    c.n = c.B ∧ ∀ i : Fin c.n, c.batch (c.sortedIndicesBatch i) = i := by
  have h := argsortAsc_flatMap c.batch c.B hv
  have h2 : (List.ofFn (argsortAsc c.batch)).map c.batch = List.range c.B := by
    rw [h, List.map_flatMap]
    have : ∀ b ∈ List.range c.B, ((List.finRange c.n).filter (fun i => c.batch i = b)).map c.batch = [b] := by
      intro b hb
      have hl := h1 b (List.mem_range.1 hb)
      rw [Cloud.countIn, card_filter_eq, List.length_eq_one_iff] at hl
      obtain ⟨a, ha⟩ := hl
      rw [ha]
      have : a ∈ (List.finRange c.n).filter (fun i => c.batch i = b) := by rw [ha]; simp
      rw [List.mem_filter] at this
      simpa using this.2
    rw [List.flatMap_congr this]
    simp
  have hn : c.n = c.B := by simpa using congrArg List.length h2
  refine ⟨hn, fun i => ?_⟩
  have h3 : ((List.ofFn (argsortAsc c.batch)).map c.batch)[i.val]? = (List.range c.B)[i.val]? := by rw [h2]
  rw [List.getElem?_map, List.getElem?_ofFn, dif_pos i.isLt, List.getElem?_range (by rw [← hn]; exact i.isLt)] at h3
  simpa [Cloud.sortedIndicesBatch] using h3

theorem netSmallLoop_cons (E : NetEnv) (N : NetSmall (k + 2)) (o o' : CloudObj (Fin (k + 2) → ℝ))
    (f : Fin o.c.n → ℕ → ℝ) (os : List (CloudObj (Fin (k + 2) → ℝ))) (l : LevelSmall (k + 2))
    (ls : List (LevelSmall (k + 2))) : netSmallLoop E N o f (o' :: os) (l :: ls) =
    match l.conv.call E o.c o'.c l.convRadius f with
    | .error e => .error e
    | .ok g => netSmallLoop E N o' (E.bnAct l.bn2 (l.lin.apply (E.bnAct l.bn1 g))) os ls := by
  cases os <;> rfl

theorem netSmallLoop_elem (E : NetEnv) (hE : E.training = false) (heps : 0 < E.eps) {b b' : ℕ} (N : NetSmall (k + 2))
    (hlast : N.last.Ok ∧ 0 < N.lastSampleRadius ∧ 0 < N.lastConvRadius) (levels : List (LevelSmall (k + 2)))
    (hl : ∀ l ∈ levels, l.conv.Ok ∧ 0 < l.sampleRadius ∧ 0 < l.convRadius) :
    ∀ (os os' : List (CloudObj (Fin (k + 2) → ℝ))) (o o' : CloudObj (Fin (k + 2) → ℝ)) (f : Fin o.c.n → ℕ → ℝ)
    (f' : Fin o'.c.n → ℕ → ℝ) (s : SameElem o.c o'.c b b') (hf : s.Agree f f')
    (ho : ∀ p ∈ o :: os, p.c.Valid) (ho' : ∀ p ∈ o' :: os', p.c.Valid)
    (hos : List.Forall₂ (fun o o' : CloudObj (Fin (k + 2) → ℝ) => Nonempty (SameElem o.c o'.c b b')) os os')
    (p p' : CloudObj (Fin (k + 2) → ℝ)) (hp : (o :: os).getLast? = some p) (hp' : (o' :: os').getLast? = some p')
    (n n' : ℕ) (g : Fin n → ℕ → ℝ) (g' : Fin n' → ℕ → ℝ)
    (h : netSmallLoop E N o f os levels = .ok ⟨n, g⟩) (h' : netSmallLoop E N o' f' os' levels = .ok ⟨n', g'⟩),
    n = p.c.n ∧ n' = p'.c.n ∧ ∃ (t : SameElem p.c p'.c b b') (u : Fin p.c.n → ℕ → ℝ) (u' : Fin p'.c.n → ℕ → ℝ),
      t.Agree u u' ∧ HEq g (u ∘ p.c.sortedIndicesBatch) ∧ HEq g' (u' ∘ p'.c.sortedIndicesBatch) := by
  induction levels with
  | nil =>
    intro os os' o o' f f' s hf ho ho' hos p p' hp hp' n n' g g' h h'
    cases hos with
    | nil => simp [netSmallLoop] at h
    | @cons q q' os os' hq hos =>
      obtain ⟨t⟩ := hq
      cases hos with
      | cons _ _ => simp [netSmallLoop] at h
      | nil =>
        unfold netSmallLoop at h h'
        split at h
        · cases h
        rename_i u e1
        split at h'
        · cases h'
        rename_i u' e1'
        simp at hp hp'
        subst hp hp'
        cases h
        cases h'
        exact ⟨rfl, rfl, t, u, u', NetConv.call_elem E hlast.1 s t hlast.2.2 heps (ho o (by simp)) (ho' o' (by simp)) hf e1 e1',
          HEq.rfl, HEq.rfl⟩
  | cons l ls ih =>
    intro os os' o o' f f' s hf ho ho' hos p p' hp hp' n n' g g' h h'
    cases hos with
    | nil => simp [netSmallLoop] at h
    | @cons q q' os os' hq hos =>
      obtain ⟨t⟩ := hq
      obtain ⟨l1, l2, l3⟩ := hl l (by simp)
      rw [netSmallLoop_cons] at h h'
      split at h
      · cases h
      rename_i u e1
      split at h'
      · cases h'
      rename_i u' e1'
      have a1 := NetConv.call_elem E l1 s t l3 heps (ho o (by simp)) (ho' o' (by simp)) hf e1 e1'
      have a2 := bnAct_elem E hE l.bn2 t (lin_elem l.lin t (bnAct_elem E hE l.bn1 t a1))
      rw [List.getLast?_cons_cons] at hp hp'
      exact ih (fun l hx => hl l (by simp [hx])) os os' q q' _ _ t a2 (fun p hp => ho p (by simp at hp ⊢; tauto))
        (fun p hp => ho' p (by simp at hp ⊢; tauto)) hos p p' hp hp' n n' g g' h h'

theorem netSmallLoop_rows (E : NetEnv) (N : NetSmall (k + 2)) (levels : List (LevelSmall (k + 2))) :
    ∀ (os : List (CloudObj (Fin (k + 2) → ℝ))) (o : CloudObj (Fin (k + 2) → ℝ)) (f : Fin o.c.n → ℕ → ℝ)
    (p : CloudObj (Fin (k + 2) → ℝ)) (hp : (o :: os).getLast? = some p)
    (n : ℕ) (g : Fin n → ℕ → ℝ) (h : netSmallLoop E N o f os levels = .ok ⟨n, g⟩), n = p.c.n := by
  induction levels with
  | nil =>
    intro os o f p hp n g h
    match os, h with
    | [], h => simp [netSmallLoop] at h
    | [q], h =>
      unfold netSmallLoop at h
      split at h
      · cases h
      cases h
      simp at hp
      rw [hp]
    | _ :: _ :: _, h => simp [netSmallLoop] at h
  | cons l ls ih =>
    intro os o f p hp n g h
    match os, h with
    | [], h => simp [netSmallLoop] at h
    | q :: os, h =>
      rw [netSmallLoop_cons] at h
      split at h
      · cases h
      rw [List.getLast?_cons_cons] at hp
      exact ih os q _ p hp n g h

theorem headSmall_elem (E : NetEnv) (hE : E.training = false) (h : NetHead) {n n' : ℕ} (f : Fin n → ℕ → ℝ)
    (f' : Fin n' → ℕ → ℝ) (b : Fin n) (b' : Fin n') (hf : f' b' = f b) : h.runSmall E f' b' = h.runSmall E f b := by
  funext ch
  simp only [NetHead.runSmall, Lin.apply, conv1x1, NetEnv.dropout1, NetEnv.dropout2, NetEnv.bnAct, BNorm.apply, hE,
    Bool.false_eq_true, if_false, hf]

/-- The number of rows is the number of points of the last level. -/
theorem C98_rows (E : NetEnv) (N : NetSmall (k + 2)) {H : Hier k ℝ} {feats : List (List (ℕ → ℝ))} {rows : List (ℕ → ℝ)}
    (h : N.logits E H feats = .ok rows) : ∃ p, H.clouds.getLast? = some p ∧ rows.length = p.c.n := by
  unfold NetSmall.logits at h
  split at h
  swap
  · cases h
  rename_i o os hcl
  split at h
  · cases h
  rename_i f0 e0
  split at h
  · cases h
  rename_i n g e1
  simp only [Except.ok.injEq] at h
  subst h
  rw [hcl]
  have hl : (o :: os).getLast? = some ((o :: os).getLast (by simp)) := List.getLast?_eq_some_getLast _
  refine ⟨_, hl, ?_⟩
  rw [List.length_ofFn]
  exact netSmallLoop_rows E N N.levels os o f0 _ hl n g e1

/-- **C98, from the levels**: at inference, if every element has one point on the
last level, there is one row per element, and the row of element `b` is determined
by the points of this element on the levels and its input features. -/
theorem C98_from_levels (E : NetEnv) (hE : E.training = false) (heps : 0 < E.eps) (N : NetSmall (k + 2)) (hN : N.Ok)
    {H H' : Hier k ℝ} {B B' : ℕ} (hcl : ∀ p ∈ H.clouds, p.c.Valid ∧ p.c.B = B)
    (hcl' : ∀ p ∈ H'.clouds, p.c.Valid ∧ p.c.B = B') {p p' : CloudObj (Fin (k + 2) → ℝ)}
    (hp : H.clouds.getLast? = some p) (hp' : H'.clouds.getLast? = some p') (h1 : OnePerElement p.c)
    (h1' : OnePerElement p'.c) {o o' : CloudObj (Fin (k + 2) → ℝ)} (ho : H.clouds.head? = some o)
    (ho' : H'.clouds.head? = some o')
    {feats feats' : List (List (ℕ → ℝ))} {rows rows' : List (ℕ → ℝ)}
    {f : Fin o.c.n → ℕ → ℝ} {f' : Fin o'.c.n → ℕ → ℝ} (hf : (o.flattenFeatures feats).1 = .ok f)
    (hf' : (o'.flattenFeatures feats').1 = .ok f')
    (h : N.logits E H feats = .ok rows) (h' : N.logits E H' feats' = .ok rows') :
    rows.length = B ∧ ∀ b b', b < B → b' < B' → (∃ s : SameElem o.c o'.c b b', s.Agree f f') →
      List.Forall₂ (fun o o' : CloudObj (Fin (k + 2) → ℝ) => Nonempty (SameElem o.c o'.c b b')) H.clouds H'.clouds →
      rows'[b']? = rows[b]? := by
  have hpm := hcl p (List.mem_of_getLast? hp)
  have hpm' := hcl' p' (List.mem_of_getLast? hp')
  obtain ⟨s1, s2⟩ := sorted_one p.c hpm.1 h1
  obtain ⟨s1', s2'⟩ := sorted_one p'.c hpm'.1 h1'
  obtain ⟨_, hq, hlen⟩ := C98_rows E N h
  rw [hp, Option.some.injEq] at hq
  subst hq
  refine ⟨by rw [hlen, s1, hpm.2], ?_⟩
  intro b b' hb hb' ⟨s, hs⟩ hF
  unfold NetSmall.logits at h h'
  split at h
  swap
  · cases h
  rename_i o1 os hcl1
  split at h'
  swap
  · cases h'
  rename_i o1' os' hcl1'
  rw [hcl1] at hcl hp ho hF
  rw [hcl1'] at hcl' hp' ho' hF
  simp only [List.head?_cons, Option.some.injEq] at ho ho'
  subst ho ho'
  rw [hf] at h
  rw [hf'] at h'
  dsimp only at h h'
  split at h
  · cases h
  rename_i n g e1
  split at h'
  · cases h'
  rename_i n' g' e1'
  simp only [Except.ok.injEq] at h h'
  subst h h'
  rw [List.forall₂_cons] at hF
  obtain ⟨rfl, rfl, t, u, u', hu, hg, hg'⟩ := netSmallLoop_elem E hE heps N hN.last N.levels hN.levels os os' o1 o1' f f' s hs
    (fun q hq => (hcl q hq).1) (fun q hq => (hcl' q hq).1) hF.2 p p' hp hp' n n' g g' e1 e1'
  cases hg
  cases hg'
  have hb : b < p.c.n := by omega
  have hb' : b' < p'.c.n := by omega
  rw [List.getElem?_ofFn, List.getElem?_ofFn, dif_pos hb, dif_pos hb']
  congr 1
  refine headSmall_elem E hE N.head _ _ ⟨b, hb⟩ ⟨b', hb'⟩ ?_
  simp only [Function.comp]
  have e1 := s2 ⟨b, hb⟩
  have e2 := s2' ⟨b', hb'⟩
  have := hu ⟨_, e1⟩
  rw [← this]
  congr 1
  -- both points carry the id `b'`, so they coincide
  have hc := h1' b' (by omega)
  rw [Cloud.countIn, Finset.card_eq_one] at hc
  obtain ⟨a, ha⟩ := hc
  have m1 : p'.c.sortedIndicesBatch ⟨b', hb'⟩ ∈ Finset.univ.filter (fun i => p'.c.batch i = b') := by
    simpa using e2
  have m2 : (t.e ⟨p.c.sortedIndicesBatch ⟨b, hb⟩, e1⟩).1 ∈ Finset.univ.filter (fun i => p'.c.batch i = b') := by
    simpa using (t.e ⟨p.c.sortedIndicesBatch ⟨b, hb⟩, e1⟩).2
  rw [ha, Finset.mem_singleton] at m1 m2
  rw [m1, m2]

/-! ### One point per element on the last level -/

theorem levelStep_average {dev : Device} {eps : ℝ} (heps : 0 < eps) {lower : String → String}
    {mode : String} {bs : Option (List ℕ)} {o o' : CloudObj (Fin (k + 2) → ℝ)} {a : Arg ℝ}
    {cs : Fin (k + 2) → ℝ} {h : Nbh k ℝ} (hv : o.c.Valid)
    (hst : LevelStep dev eps lower mode bs o a (.ok (o', cs, h))) (hpos : ∀ d, 0 < cs d)
    (hm : lower mode ∈ ["average", "cell average", "cell_average"]) :
    ∃ f, IsCellAverage ⟨o.c, cs, eps⟩ o'.c f := by
  cases hst with
  | ok l h c hl hnew hs hb =>
    have hc := ((C28_sample_modes_partial h lower mode).2.1 hm _).mp hs
    simp only [Except.ok.injEq] at hc
    subst hc
    obtain ⟨e1, _, e3, _⟩ := new_pairs hnew
    have key : ∀ (c' : Cloud (Fin (k + 2) → ℝ)), c' = cellAverage ⟨o.c, vecOf l, eps⟩ h.sample.B →
        ∃ f, IsCellAverage ⟨o.c, vecOf l, eps⟩ c' f := by
      intro c' hc'
      subst hc'
      exact C29_cell_average (⟨o.c, vecOf l, eps⟩ : Grid (k + 2) ℝ) h.sample.B hv hpos heps
    exact key _ (by rw [setBatchShape_c, e1]; rfl)

theorem levelStep_separated {dev : Device} {eps : ℝ} (heps : 0 < eps) {lower : String → String}
    {mode : String} {bs : Option (List ℕ)} {o o' : CloudObj (Fin (k + 2) → ℝ)} {a : Arg ℝ}
    {cs : Fin (k + 2) → ℝ} {h : Nbh k ℝ} (hv : o.c.Valid)
    (hst : LevelStep dev eps lower mode bs o a (.ok (o', cs, h))) (hpos : 0 < cs 0) (hmin : ∀ d, cs 0 ≤ cs d)
    (hm : lower mode ∈ ["poisson", "poisson disk", "poisson_disk"]) (i j : Fin o'.c.n) (hij : i ≠ j)
    (hb : o'.c.batch i = o'.c.batch j) : ¬ normLt (fun d => o'.c.pts i d - o'.c.pts j d) (cs 0) := by
  cases hst with
  | ok l h c hl hnew hs hb' =>
    obtain ⟨out, ho, hc⟩ := ((C28_sample_modes_partial h lower mode).1 hm _).mp hs
    simp only [Except.ok.injEq] at hc
    subst hc
    obtain ⟨e1, e2, _⟩ := new_pairs hnew
    have hreg : Regular h := by
      obtain ⟨g', r', s', q', nb'⟩ := h
      simp only at e1 e2
      subst e1 e2
      exact ⟨hv, hpos, hmin, rfl, heps⟩
    have key : ∀ (c' : Cloud (Fin (k + 2) → ℝ)), c' = (poissonSample h out).1 → ∀ i j : Fin c'.n, i ≠ j →
        c'.batch i = c'.batch j → ¬ normLt (fun d => c'.pts i d - c'.pts j d) (vecOf (D := k + 2) l 0) := by
      intro c' hc'
      subst hc'
      exact (C25_poisson_separated dev _ _ h hnew hreg out ho).2
    exact key _ (by rw [setBatchShape_c]; rfl) i j hij hb

/-- The step to the last level. -/
theorem levels_last {dev : Device} {eps : ℝ} (heps : 0 < eps) {lower : String → String} {mode : String}
    {bs : Option (List ℕ)} {o : CloudObj (Fin (k + 2) → ℝ)} {init : List (Arg ℝ)} {a : Arg ℝ}
    {ls : List (CloudObj (Fin (k + 2) → ℝ) × (Fin (k + 2) → ℝ) × Nbh k ℝ)}
    (hls : Levels dev eps lower mode bs o (init ++ [a]) (.ok ls)) (hv : o.c.Valid)
    (hpos : ∀ cs ∈ ls.map (·.2.1), ∀ d, 0 < cs d) (P : Cloud (Fin (k + 2) → ℝ) → Prop) (hP : P o.c)
    (hstep : ∀ o a o' cs h, o.c.Valid → (∀ d, 0 < cs d) → LevelStep dev eps lower mode bs o a (.ok (o', cs, h)) →
      P o.c → P o'.c) :
    ∃ q p cs h, q.c.Valid ∧ P q.c ∧ LevelStep dev eps lower mode bs q a (.ok (p, cs, h)) ∧
      (ls.map (·.1)).getLast? = some p ∧ (ls.map (·.2.1)).getLast? = some cs := by
  induction init generalizing o ls with
  | nil =>
    cases hls with
    | cons _ _ _ p cs h rest hst hrest =>
      cases hrest
      exact ⟨o, p, cs, h, hv, hP, hst, rfl, rfl⟩
  | cons b bs' ih =>
    cases hls with
    | cons _ _ _ p cs h rest hst hrest =>
      have hp := hpos cs (by simp)
      obtain ⟨q, r, cs', h', q1, q2, q3, q4, q5⟩ := ih hrest (levelStep_spec heps hv hst hp).1.valid
        (fun c hc => hpos c (by rw [List.map_cons]; exact List.mem_cons_of_mem _ hc)) (hstep _ _ _ _ _ hv hp hst hP)
      refine ⟨q, r, cs', h', q1, q2, q3, ?_, ?_⟩
      · rw [List.map_cons, List.getLast?_cons, q4]; rfl
      · rw [List.map_cons, List.getLast?_cons, q5]; rfl

/-- Points of the same element differ by at most `w` in each coordinate. -/
def Spread (w : ℝ) (c : Cloud (Fin (k + 2) → ℝ)) : Prop :=
  ∀ i j, c.batch i = c.batch j → ∀ d, c.pts i d - c.pts j d ≤ w

/-- Points of the same element have a distance below `r`. -/
def Diam (r : ℝ) (c : Cloud (Fin (k + 2) → ℝ)) : Prop :=
  ∀ i j, c.batch i = c.batch j → normLt (fun d => c.pts i d - c.pts j d) r

theorem mean_bounds {ι : Type*} (F : Finset ι) (hF : F.Nonempty) (x : ι → ℝ) (a : ℝ) :
    ((∀ i ∈ F, x i ≤ a) → (∑ i ∈ F, x i) / (F.card : ℝ) ≤ a) ∧
    ((∀ i ∈ F, a ≤ x i) → a ≤ (∑ i ∈ F, x i) / (F.card : ℝ)) := by
  have hn : (0 : ℝ) < F.card := by exact_mod_cast hF.card_pos
  constructor
  · intro h
    rw [div_le_iff₀ hn]
    have := Finset.sum_le_card_nsmul F x a h
    rw [nsmul_eq_mul] at this
    linarith
  · intro h
    rw [le_div_iff₀ hn]
    have := Finset.card_nsmul_le_sum F x a h
    rw [nsmul_eq_mul] at this
    linarith

theorem average_spread {g : Grid (k + 2) ℝ} {out : Cloud (Fin (k + 2) → ℝ)} {f : Fin g.c.n → Fin out.n}
    (hf : IsCellAverage g out f) {w : ℝ} (hw : Spread w g.c) : Spread w out := by
  intro s t hst d
  have hmem : ∀ s i, i ∈ Finset.univ.filter (fun i => f i = s) ↔ f i = s := by simp
  have hne : ∀ s, (Finset.univ.filter (fun i => f i = s)).Nonempty := by
    intro s
    obtain ⟨i, hi⟩ := hf.surj s
    exact ⟨i, (hmem s i).2 hi⟩
  have hbatch : ∀ s i, f i = s → g.c.batch i = out.batch s := by
    rintro s i rfl
    exact (hf.batch i).symm
  have h1 : ∀ j, f j = t → out.pts s d ≤ g.c.pts j d + w := by
    intro j hj
    rw [hf.mean s d]
    apply (mean_bounds _ (hne s) (fun i => g.c.pts i d) _).1
    intro i hi
    have := hw i j (by rw [hbatch s i ((hmem s i).1 hi), hst, hbatch t j hj]) d
    linarith
  have h2 : out.pts s d - w ≤ out.pts t d := by
    rw [hf.mean t d]
    apply (mean_bounds _ (hne t) (fun i => g.c.pts i d) _).2
    intro j hj
    have := h1 j ((hmem t j).1 hj)
    linarith
  linarith

theorem sub_diam {c c' : Cloud (Fin (k + 2) → ℝ)} (h : SubCloud c c') {r : ℝ} (hr : Diam r c) : Diam r c' := by
  obtain ⟨f, _, hf⟩ := h
  intro i j hij
  have := hr (f i) (f j) (by rw [← (hf i).2, ← (hf j).2, hij])
  rw [(hf i).1, (hf j).1]
  exact this

/-- An element whose extent is below the cell size lies in one cell. -/
theorem one_cell {g : Grid (k + 2) ℝ} {out : Cloud (Fin (k + 2) → ℝ)} {f : Fin g.c.n → Fin out.n}
    (hf : IsCellAverage g out f) {w r : ℝ} (hw : Spread w g.c) (hcs : ∀ d, g.cs d = r) (heps : 0 < g.eps)
    (hr : w + g.eps < r) (i j : Fin g.c.n) (hb : g.c.batch i = g.c.batch j) : f i = f j := by
  rw [hf.cells]
  refine ⟨hb, ?_⟩
  have key : ∀ m : Fin g.c.n, g.c.batch m = g.c.batch i → ∀ d lo, aabbMin g.eps g.c (g.c.batch i) d = some lo →
      ⌊(g.c.pts m d - lo) / g.cs d⌋ = 0 := by
    intro m hm d lo hlo
    obtain ⟨q, hq, h1, h2⟩ := aabbMin_own g.eps g.c i d
    rw [hlo, Option.some.injEq] at h1
    subst h1
    have a1 := h2 m hm
    have a2 := hw m q (by rw [hm, hq]) d
    have hq0 : 0 ≤ w := by simpa using hw i i rfl d
    have hr0 : 0 < r := by linarith
    rw [Int.floor_eq_zero_iff, hcs]
    constructor
    · apply div_nonneg _ hr0.le
      linarith
    · rw [div_lt_one hr0]
      linarith
  intro d lo hlo
  rw [key i rfl d lo hlo, key j hb.symm d lo hlo]

theorem onePer_of {c c' : Cloud (Fin (k + 2) → ℝ)} (hC : Coarsens c c') (hne : c.NoEmpty)
    (h : ∀ i j, c'.batch i = c'.batch j → i = j) : OnePerElement c' := by
  intro b hb
  have h1 := hC.keeps b ((members_pos b).2 (hne b (by rw [← hC.batchSize]; exact hb)))
  have h2 : c'.countIn b ≤ 1 := by
    rw [Cloud.countIn, Finset.card_le_one]
    intro i hi j hj
    rw [Finset.mem_filter] at hi hj
    exact h i j (by rw [hi.2, hj.2])
  omega

/-- How small the shapes must be for the last level: distances below the last
sampling radius for Poisson disk sampling, extents (with the border of the bounding
box) below it for cell averages. -/
def SmallShapes (eps r : ℝ) (lower : String → String) (mode : String) (c : Cloud (Fin (k + 2) → ℝ)) : Prop :=
  (lower mode ∈ ["poisson", "poisson disk", "poisson_disk"] ∧ Diam r c) ∨
  (lower mode ∈ ["average", "cell average", "cell_average"] ∧ ∃ w, w + eps < r ∧ Spread w c)

theorem hier_one {dev : Device} {eps : ℝ} (heps : 0 < eps) {lower : String → String} {mode : String}
    {o : CloudObj (Fin (k + 2) → ℝ)} (hv : o.c.Valid) (hne : o.c.NoEmpty) {rs : List ℝ} {r : ℝ} (hrs : ∀ x ∈ rs, 0 < x)
    (hr : 0 < r) {H : Hier k ℝ} (hH : HierNew dev eps lower mode o ((rs ++ [r]).map (fun r => ⟨[1], [r]⟩)) (.ok H))
    (hs : SmallShapes eps r lower mode o.c) : ∃ p, H.clouds.getLast? = some p ∧ OnePerElement p.c := by
  have hsz := hier_sizes hH
  have hpos : ∀ cs ∈ H.cellSizes, ∀ d, 0 < cs d := by
    intro cs hcs d
    rw [hsz, List.mem_map] at hcs
    obtain ⟨x, hx, rfl⟩ := hcs
    rcases List.mem_append.1 hx with hx | hx
    · exact hrs x hx
    · rw [List.mem_singleton] at hx
      rw [hx]
      exact hr
  rcases hH with ⟨ls, hls, he⟩ | ⟨e, _, he⟩
  swap
  · simp at he
  simp only [Except.ok.injEq] at he
  subst he
  dsimp only at hsz hpos ⊢
  rw [List.map_append, List.map_singleton] at hls
  have hkeep : ∀ {bs : Option (List ℕ)} (o : CloudObj (Fin (k + 2) → ℝ)) a o' cs h, o.c.Valid → (∀ d, 0 < cs d) →
      LevelStep dev eps lower mode bs o a (.ok (o', cs, h)) → o.c.NoEmpty → o'.c.NoEmpty := by
    intro bs o a o' cs h hv hp hst hne b hb
    have hC := (levelStep_spec heps hv hst hp).1
    exact (members_pos b).1 (hC.keeps b ((members_pos b).2 (hne b (by rw [← hC.batchSize]; exact hb))))
  have hlast : ∀ cs, (ls.map (·.2.1)).getLast? = some cs → cs = fun _ => r := by
    intro cs hcs
    rw [hsz, List.map_append, List.map_singleton, List.getLast?_append] at hcs
    simpa using hcs.symm
  have hgl : ∀ p, (ls.map (·.1)).getLast? = some p → (o :: ls.map (·.1)).getLast? = some p := by
    intro p hp
    rw [List.getLast?_cons, hp]; rfl
  rcases hs with ⟨hm, hD⟩ | ⟨hm, w, hw, hS⟩
  · obtain ⟨q, p, cs, h, q1, q2, q3, q4, q5⟩ := levels_last heps hls hv hpos (fun c => c.NoEmpty ∧ Diam r c) ⟨hne, hD⟩
      (by
        intro o a o' cs h hv hp hst hP
        exact ⟨hkeep o a o' cs h hv hp hst hP.1, sub_diam ((levelStep_spec heps hv hst hp).2 hm) hP.2⟩)
    have hcs := hlast cs q5
    subst hcs
    refine ⟨p, hgl p q4, ?_⟩
    obtain ⟨hC, hsub⟩ := levelStep_spec heps q1 q3 (fun _ => hr)
    refine onePer_of hC q2.1 ?_
    intro i j hij
    by_contra hne
    exact levelStep_separated heps q1 q3 hr (fun _ => le_rfl) hm i j hne hij (sub_diam (hsub hm) q2.2 i j hij)
  · obtain ⟨q, p, cs, h, q1, q2, q3, q4, q5⟩ := levels_last heps hls hv hpos (fun c => c.NoEmpty ∧ Spread w c) ⟨hne, hS⟩
      (by
        intro o a o' cs h hv hp hst hP
        obtain ⟨f, hf⟩ := levelStep_average heps hv hst hp hm
        exact ⟨hkeep o a o' cs h hv hp hst hP.1, average_spread hf hP.2⟩)
    have hcs := hlast cs q5
    subst hcs
    refine ⟨p, hgl p q4, ?_⟩
    obtain ⟨hC, _⟩ := levelStep_spec heps q1 q3 (fun _ => hr)
    obtain ⟨f, hf⟩ := levelStep_average heps q1 q3 (fun _ => hr) hm
    refine onePer_of hC q2.1 ?_
    intro i j hij
    obtain ⟨i, rfl⟩ := hf.surj i
    obtain ⟨j, rfl⟩ := hf.surj j
    rw [hf.batch, hf.batch] at hij
    exact one_cell hf q2.2 (fun _ => rfl) heps hw i j hij

/-! ### Features of the input points -/

theorem members_map {α γ : Type*} (c : Cloud α) (g : Fin c.n → γ) (b : ℕ) :
    (((List.ofFn c.batch).zip (List.ofFn g)).filter (fun p => p.1 = b)).map Prod.snd = (c.members b).map g := by
  have hz : (List.ofFn c.batch).zip (List.ofFn g) = (List.finRange c.n).map (fun i => (c.batch i, g i)) := by
    apply List.ext_getElem
    · simp
    · intro i h1 h2
      simp
  rw [hz, List.filter_map, List.map_map]
  rfl

theorem flattenRows_zip {α β : Type*} (V : ℕ) (xs : List (List α)) (ys : List (List β)) (sizes : List ℕ)
    (hx : ∀ l ∈ xs, l.length = V) (hy : ∀ l ∈ ys, l.length = V) (hlen : xs.length = ys.length) :
    (flattenRows xs sizes).zip (flattenRows ys sizes) = flattenRows (List.zipWith List.zip xs ys) sizes := by
  induction xs generalizing ys sizes with
  | nil => simp [flattenRows]
  | cons x xs ih =>
    cases ys with
    | nil => simp at hlen
    | cons y ys =>
      cases sizes with
      | nil => simp [flattenRows]
      | cons s ss =>
        have h1 : ∀ {γ : Type _} (l : List γ) (ls : List (List γ)), flattenRows (l :: ls) (s :: ss) = l.take s ++ flattenRows ls ss := by
          intro γ l ls
          simp [flattenRows]
        have h2 : ∀ {γ : Type _} (l : List γ) (ls : List (List γ)), flattenRows (l :: ls) (s :: ss) = l.take s ++ flattenRows ls ss := by
          intro γ l ls
          simp [flattenRows]
        have h3 : ∀ {γ : Type _} (l : List γ) (ls : List (List γ)), flattenRows (l :: ls) (s :: ss) = l.take s ++ flattenRows ls ss := by
          intro γ l ls
          simp [flattenRows]
        rw [h1, h2, List.zipWith_cons_cons, h3, List.zip_append, ih ys ss (fun l hl => hx l (by simp [hl]))
          (fun l hl => hy l (by simp [hl])) (by simpa using hlen), List.zip, ← List.take_zipWith]
        rw [List.length_take, List.length_take, hx x (by simp), hy y (by simp)]

theorem padded_features {α β : Type*} {V B : ℕ} {points : List (List α)} {sizes : List ℕ} (hP : PaddedOk V points sizes)
    {o : CloudObj α} (ho : CloudObj.newPadded [points.length] V points (some sizes) (some B) = .ok o)
    {feats : List (List β)} (hf : feats.length = points.length) (hfV : ∀ row ∈ feats, row.length = V)
    {f : Fin o.c.n → β} (h : (o.flattenFeatures feats).1 = .ok f) (b : ℕ) :
    (o.c.members b).map (fun i => (o.c.pts i, f i)) =
      ((List.zipWith List.zip points feats).getD b []).take (sizes.getD b 0) := by
  obtain ⟨_, p2, p3, p4, p5, p6, p7, p8, _⟩ := newPadded_spec hP.len hP.block hP.size ho
  have hsort : o.c.sortedIndicesBatch = Equiv.refl _ := argsortAsc_eq_refl o.c.batch p6
  have hF : List.ofFn f = flattenRows feats sizes := by
    unfold CloudObj.flattenFeatures at h
    have hg : o.getSizes = (.ok ([B], sizes), o) := by
      unfold CloudObj.getSizes
      rw [p5]
    rw [hg] at h
    dsimp only at h
    split at h
    · rename_i hl
      simp only [Except.ok.injEq] at h
      subst h
      apply List.ext_getElem
      · rw [List.length_ofFn, hl]
      · intro i h1 h2
        rw [List.getElem_ofFn]
        simp only [hsort]
        rfl
    · cases h
  rw [← members_map]
  have hz : List.ofFn (fun i => (o.c.pts i, f i)) = flattenRows (List.zipWith List.zip points feats) sizes := by
    rw [← flattenRows_zip V points feats sizes hP.block hfV hf.symm, ← p7, ← hF]
    apply List.ext_getElem
    · simp
    · intro i h1 h2
      simp
  rw [hz, p8]
  have := padded_element V (List.zipWith List.zip points feats) sizes (by rw [List.length_zipWith, hf, hP.len]; simp)
    (by
      intro l hl
      rw [List.mem_iff_getElem] at hl
      obtain ⟨i, hi, rfl⟩ := hl
      rw [List.getElem_zipWith, List.length_zip, hP.block _ (List.getElem_mem _), hfV _ (List.getElem_mem _), min_self])
    hP.size 0 b
  rw [if_pos (Nat.zero_le _), Nat.sub_zero] at this
  exact this

/-- Elements listing the same points with the same features, in any order. -/
theorem SameElem.ofPermFeatures {D : ℕ} {β : Type*} {c c' : Cloud (Fin D → ℝ)} {b b' : ℕ} {f : Fin c.n → β} {f' : Fin c'.n → β}
    (h : ((c.members b).map (fun i => (c.pts i, f i))).Perm ((c'.members b').map (fun i => (c'.pts i, f' i)))) :
    ∃ s : SameElem c c' b b', s.Agree f f' := by
  classical
  have key : ∀ (c : Cloud (Fin D → ℝ)) (f : Fin c.n → β) (b : ℕ) (y : (Fin D → ℝ) × β),
      Nat.card {p : {p : Fin c.n // c.batch p = b} // (c.pts p, f p) = y} =
        ((c.members b).map (fun i => (c.pts i, f i))).count y := by
    intro c f b y
    have h := members_fiber ⟨c.n, fun i => (c.pts i, f i), c.batch, c.B⟩ b y
    rw [lawful_beq_subsingleton instBEqOfDecidableEq instBEqProd] at h
    exact h
  obtain ⟨e, he⟩ := fiber_equiv (fun p : {p : Fin c.n // c.batch p = b} => (c.pts p, f p))
    (fun p : {p : Fin c'.n // c'.batch p = b'} => (c'.pts p, f' p)) (by
      intro y
      rw [key, key, h.count_eq])
  exact ⟨⟨e, fun p => congrArg Prod.fst (he p)⟩, fun p => congrArg Prod.snd (he p)⟩

/-! ## C98 -/

/-- Specification: the shapes of a batch are small against the radius `r`: distances
below it for Poisson disk sampling, extents (with the border of the bounding box)
below it for cell averages. -/
def ShapesSmall (eps r : ℝ) (lower : String → String) (mode : String) (shapes : List (List (Fin (k + 2) → ℝ))) : Prop :=
  (lower mode ∈ ["poisson", "poisson disk", "poisson_disk"] ∧
    ∀ s ∈ shapes, ∀ x ∈ s, ∀ y ∈ s, normLt (fun d => x d - y d) r) ∨
  (lower mode ∈ ["average", "cell average", "cell_average"] ∧
    ∃ w, w + eps < r ∧ ∀ s ∈ shapes, ∀ x ∈ s, ∀ y ∈ s, ∀ d, x d - y d ≤ w)

theorem smallShapes_of {eps r : ℝ} {lower : String → String} {mode : String} {V B : ℕ}
    {points : List (List (Fin (k + 2) → ℝ))} {sizes : List ℕ} (hP : PaddedOk V points sizes)
    {o : CloudObj (Fin (k + 2) → ℝ)} (ho : CloudObj.newPadded [points.length] V points (some sizes) (some B) = .ok o)
    (h : ShapesSmall eps r lower mode (List.zipWith (fun l s => l.take s) points sizes)) :
    SmallShapes eps r lower mode o.c := by
  obtain ⟨p1, p2, p3, _, _, _, _, _, p8⟩ := newPadded_spec hP.len hP.block hP.size ho
  have key : ∀ i : Fin o.c.n, ∃ s ∈ List.zipWith (fun l s => l.take s) points sizes,
      ∀ j, o.c.batch j = o.c.batch i → o.c.pts j ∈ s := by
    intro i
    have hb := p3 i
    rw [p2, p1] at hb
    have hb' : o.c.batch i < sizes.length := by rw [hP.len]; exact hb
    refine ⟨(points[o.c.batch i]).take (sizes[o.c.batch i]), ?_, ?_⟩
    · rw [List.mem_iff_getElem]
      exact ⟨o.c.batch i, by simp [hb, hb'], by simp⟩
    · intro j hj
      have h8 := p8 (o.c.batch i)
      rw [List.getD_eq_getElem?_getD, List.getD_eq_getElem?_getD, List.getElem?_eq_getElem hb,
        List.getElem?_eq_getElem hb'] at h8
      simp only [Option.getD_some] at h8
      rw [← h8, List.mem_map]
      exact ⟨j, by simp [Cloud.members, hj], rfl⟩
  rcases h with ⟨hm, h⟩ | ⟨hm, w, hw, h⟩
  · refine Or.inl ⟨hm, ?_⟩
    intro i j hij
    obtain ⟨s, hs, hs'⟩ := key i
    exact h s hs _ (hs' i rfl) _ (hs' j hij.symm)
  · refine Or.inr ⟨hm, w, hw, ?_⟩
    intro i j hij d
    obtain ⟨s, hs, hs'⟩ := key i
    exact h s hs _ (hs' i rfl) _ (hs' j hij.symm) d

theorem padded_noEmpty {α : Type*} {V B : ℕ} {points : List (List α)} {sizes : List ℕ} (hP : PaddedOk V points sizes)
    {o : CloudObj α} (ho : CloudObj.newPadded [points.length] V points (some sizes) (some B) = .ok o)
    (hne : ∀ s ∈ sizes, 0 < s) : o.c.NoEmpty := by
  obtain ⟨p1, p2, _⟩ := newPadded_spec hP.len hP.block hP.size ho
  intro b hb
  rw [← members_pos, padded_countIn hP ho, List.getD_eq_getElem?_getD,
    List.getElem?_eq_getElem (by rw [hP.len, ← p1, ← p2]; exact hb)]
  exact hne _ (List.getElem_mem _)

theorem netSmall_pos {N : NetSmall (k + 2)} (hN : N.Ok) {dev : Device} {eps : ℝ} {lower : String → String} {mode : String}
    {o : CloudObj (Fin (k + 2) → ℝ)} {H : Hier k ℝ} (hH : HierNew dev eps lower mode o N.sizes (.ok H)) :
    ∀ cs ∈ H.cellSizes, ∀ d, 0 < cs d := by
  intro cs hcs d
  rw [hier_sizes hH, List.mem_map] at hcs
  obtain ⟨r, hr, rfl⟩ := hcs
  rcases List.mem_append.1 hr with hr | hr
  · obtain ⟨l, hl, rfl⟩ := List.mem_map.1 hr
    exact (hN.levels l hl).2.1
  · rw [List.mem_singleton] at hr
    rw [hr]
    exact hN.last.2.1

/-- **C98, one row per shape**: if the shapes are small against the last sampling
radius, the network returns one row of logits per shape (training or not). -/
theorem C98_one_row_per_shape_partial (E : NetEnv) (heps : 0 < E.eps) (N : NetSmall (k + 2)) (hN : N.Ok)
    (lower : String → String) (mode : String) {B V : ℕ} {points : List (List (Fin (k + 2) → ℝ))} {sizes : List ℕ}
    (hP : PaddedOk V points sizes) (hne : ∀ s ∈ sizes, 0 < s)
    (hsm : ShapesSmall E.eps N.lastSampleRadius lower mode (List.zipWith (fun l s => l.take s) points sizes))
    {feats : List (List (ℕ → ℝ))} {rows : List (ℕ → ℝ)}
    (h : N.Call E lower mode B V points feats sizes (.ok rows)) : rows.length = points.length := by
  unfold NetSmall.Call at h
  split at h
  · cases h
  rename_i o ho
  rcases h with ⟨e, _, he⟩ | ⟨H, hH, h⟩
  · cases he
  obtain ⟨p1, p2, p3, _⟩ := newPadded_spec hP.len hP.block hP.size ho
  obtain ⟨p, hp, hone⟩ := hier_one heps p3 (padded_noEmpty hP ho hne) (by
    intro x hx
    obtain ⟨l, hl, rfl⟩ := List.mem_map.1 hx
    exact (hN.levels l hl).2.1) hN.last.2.1 hH (smallShapes_of hP ho hsm)
  obtain ⟨q, hq, hlen⟩ := C98_rows E N h.symm
  rw [hp, Option.some.injEq] at hq
  subst hq
  obtain ⟨v, hB⟩ := hier_clouds heps p3 hH (netSmall_pos hN hH) p (List.mem_of_getLast? hp)
  rw [hlen, (sorted_one p.c v hone).1, hB, p2, p1]

/-- **C98**: at inference, with cell averages and shapes small against the last cell
size, the row of a shape is determined by its points and their features: it does
not depend on the other shapes, the batch size, the padding or the order of the
points. -/
theorem C98_logits_of_a_shape_partial (E : NetEnv) (hE : E.training = false) (heps : 0 < E.eps) (N : NetSmall (k + 2))
    (hN : N.Ok) (lower : String → String) (mode : String) (hm : lower mode ∈ ["average", "cell average", "cell_average"])
    {B V B' V' : ℕ} {points points' : List (List (Fin (k + 2) → ℝ))} {sizes sizes' : List ℕ}
    (hP : PaddedOk V points sizes) (hP' : PaddedOk V' points' sizes') (hne : ∀ s ∈ sizes, 0 < s) (hne' : ∀ s ∈ sizes', 0 < s)
    (hsm : ShapesSmall E.eps N.lastSampleRadius lower mode (List.zipWith (fun l s => l.take s) points sizes))
    (hsm' : ShapesSmall E.eps N.lastSampleRadius lower mode (List.zipWith (fun l s => l.take s) points' sizes'))
    {feats feats' : List (List (ℕ → ℝ))} (hf : feats.length = points.length) (hfV : ∀ row ∈ feats, row.length = V)
    (hf' : feats'.length = points'.length) (hfV' : ∀ row ∈ feats', row.length = V') {rows rows' : List (ℕ → ℝ)}
    (h : N.Call E lower mode B V points feats sizes (.ok rows))
    (h' : N.Call E lower mode B' V' points' feats' sizes' (.ok rows')) (b b' : ℕ) (hb : b < points.length)
    (hb' : b' < points'.length)
    (hperm : (((points.getD b []).zip (feats.getD b [])).take (sizes.getD b 0)).Perm
      (((points'.getD b' []).zip (feats'.getD b' [])).take (sizes'.getD b' 0))) :
    rows'[b']? = rows[b]? := by
  unfold NetSmall.Call at h h'
  split at h
  · cases h
  rename_i o ho
  split at h'
  · cases h'
  rename_i o' ho'
  rcases h with ⟨e, _, he⟩ | ⟨H, hH, h⟩
  · cases he
  rcases h' with ⟨e, _, he⟩ | ⟨H', hH', h'⟩
  · cases he
  obtain ⟨p1, p2, p3, _⟩ := newPadded_spec hP.len hP.block hP.size ho
  obtain ⟨q1, q2, q3, _⟩ := newPadded_spec hP'.len hP'.block hP'.size ho'
  have hrs : ∀ x ∈ N.levels.map LevelSmall.sampleRadius, 0 < x := by
    intro x hx
    obtain ⟨l, hl, rfl⟩ := List.mem_map.1 hx
    exact (hN.levels l hl).2.1
  obtain ⟨p, hp, hone⟩ := hier_one heps p3 (padded_noEmpty hP ho hne) hrs hN.last.2.1 hH (smallShapes_of hP ho hsm)
  obtain ⟨p', hp', hone'⟩ := hier_one heps q3 (padded_noEmpty hP' ho' hne') hrs hN.last.2.1 hH' (smallShapes_of hP' ho' hsm')
  have hh := (C31_hierarchy_well_formed _ _ heps lower mode o p3 _ H hH (netSmall_pos hN hH)).2.1
  have hh' := (C31_hierarchy_well_formed _ _ heps lower mode o' q3 _ H' hH' (netSmall_pos hN hH')).2.1
  -- the flattened features
  have hfl : ∀ {o : CloudObj (Fin (k + 2) → ℝ)} {H : Hier k ℝ} {feats : List (List (ℕ → ℝ))} {rows : List (ℕ → ℝ)},
      H.clouds.head? = some o → Except.ok rows = N.logits E H feats → ∃ f, (o.flattenFeatures feats).1 = .ok f := by
    intro o H feats rows hh h
    unfold NetSmall.logits at h
    split at h
    swap
    · cases h
    rename_i o1 os hcl
    rw [hcl, List.head?_cons, Option.some.injEq] at hh
    subst hh
    split at h
    · cases h
    · rename_i f0 e0
      exact ⟨f0, e0⟩
  obtain ⟨f, ef⟩ := hfl hh h
  obtain ⟨f', ef'⟩ := hfl hh' h'
  have hz : ∀ (points : List (List (Fin (k + 2) → ℝ))) (feats : List (List (ℕ → ℝ))) (b : ℕ), feats.length = points.length →
      (List.zipWith List.zip points feats).getD b [] = (points.getD b []).zip (feats.getD b []) := by
    intro points feats b hl
    by_cases hb : b < points.length
    · have hb2 : b < feats.length := by omega
      have hb3 : b < (List.zipWith List.zip points feats).length := by simp; omega
      rw [List.getD_eq_getElem?_getD, List.getD_eq_getElem?_getD, List.getD_eq_getElem?_getD,
        List.getElem?_eq_getElem hb, List.getElem?_eq_getElem hb2, List.getElem?_eq_getElem hb3]
      simp
    · have hb3 : ¬ b < (List.zipWith List.zip points feats).length := by simp; omega
      rw [List.getD_eq_getElem?_getD, List.getD_eq_getElem?_getD,
        List.getElem?_eq_none (by omega), List.getElem?_eq_none (by omega)]
      simp
  rw [← hz points feats b hf, ← hz points' feats' b' hf', ← padded_features hP ho hf hfV ef,
    ← padded_features hP' ho' hf' hfV' ef'] at hperm
  obtain ⟨s, hs⟩ := SameElem.ofPermFeatures hperm
  exact (C98_from_levels E hE heps N hN (hier_clouds heps p3 hH (netSmall_pos hN hH))
    (hier_clouds heps q3 hH' (netSmall_pos hN hH')) hp hp' hone hone' hh hh' ef ef' h.symm h'.symm).2 b b' (by omega) (by omega)
    ⟨s, hs⟩ (C94_hierarchy heps hm p3 q3 s _ H H' hH hH' (netSmall_pos hN hH)).2

/-! ### The network returns -/

theorem netSmallLoop_returns (E : NetEnv) (hdev : E.dev = .gpu) (heps : 0 < E.eps) (N : NetSmall (k + 2))
    (hlast : N.last.Ok ∧ 0 < N.lastSampleRadius ∧ 0 < N.lastConvRadius) (levels : List (LevelSmall (k + 2)))
    (hl : ∀ l ∈ levels, l.conv.Ok ∧ 0 < l.sampleRadius ∧ 0 < l.convRadius) {B : ℕ} :
    ∀ (os : List (CloudObj (Fin (k + 2) → ℝ))) (o : CloudObj (Fin (k + 2) → ℝ)) (f : Fin o.c.n → ℕ → ℝ),
    (∀ p ∈ o :: os, p.c.Valid ∧ p.c.B = B ∧ 0 < p.c.n) → os.length = levels.length + 1 →
    ∃ x, netSmallLoop E N o f os levels = .ok x := by
  induction levels with
  | nil =>
    intro os o f ho hlen
    obtain ⟨o', rfl⟩ := List.length_eq_one_iff.1 hlen
    have h1 := ho o (by simp)
    have h2 := ho o' (by simp)
    obtain ⟨g, e⟩ := NetConv.call_returns E hdev heps hlast.1 hlast.2.2 h1.1 h2.1 (h2.2.1.trans h1.2.1.symm) h1.2.2 h2.2.2 f
    unfold netSmallLoop
    rw [e]
    exact ⟨_, rfl⟩
  | cons l ls ih =>
    intro os o f ho hlen
    cases os with
    | nil => simp at hlen
    | cons o' os =>
      have h1 := ho o (by simp)
      have h2 := ho o' (by simp)
      obtain ⟨g, e⟩ := NetConv.call_returns E hdev heps (hl l (by simp)).1 (hl l (by simp)).2.2 h1.1 h2.1
        (h2.2.1.trans h1.2.1.symm) h1.2.2 h2.2.2 f
      rw [netSmallLoop_cons, e]
      exact ih (fun l hl' => hl l (by simp [hl'])) os o' _ (fun p hp => ho p (List.mem_cons_of_mem _ hp)) (by simpa using hlen)

/-- **C98, the call returns**: on the GPU, for non-empty padded shapes with padded
features, the network returns logits and raises no exception. -/
theorem C98_returns (E : NetEnv) (hdev : E.dev = .gpu) (heps : 0 < E.eps) (N : NetSmall (k + 2)) (hN : N.Ok)
    (lower : String → String) (mode : String)
    (hm : lower mode ∈ ["poisson", "poisson disk", "poisson_disk", "average", "cell average", "cell_average"])
    {V : ℕ} {points : List (List (Fin (k + 2) → ℝ))} {sizes : List ℕ}
    (hP : PaddedOk V points sizes) (hne : ∀ s ∈ sizes, 0 < s) (hB : points ≠ []) {feats : List (List (ℕ → ℝ))}
    (hf : feats.length = points.length) (hfV : ∀ row ∈ feats, row.length = V) :
    (∃ rows, N.Call E lower mode points.length V points feats sizes (.ok rows)) ∧
    ∀ e, ¬ N.Call E lower mode points.length V points feats sizes (.error e) := by
  obtain ⟨o, ho⟩ := newPadded_returns hP
  obtain ⟨_, p2, p3, p4, p5, _, p7, _, p8⟩ := newPadded_spec hP.len hP.block hP.size ho
  have hBpos : 0 < points.length := List.length_pos_iff.2 hB
  have hno := padded_noEmpty hP ho hne
  have hn : 0 < o.c.n := by
    obtain ⟨i, _⟩ := hno 0 (by omega)
    exact i.pos
  have hhier := C31_constructor_succeeds E.eps heps lower mode hm o p3 hn (by
    intro sh hsh
    rw [p4, Option.some.injEq] at hsh
    rw [← hsh, p2]
    simp) N.sizes (by
    intro a ha
    obtain ⟨r, hr, rfl⟩ := List.mem_map.1 ha
    refine ⟨rfl, le_rfl, by simp, ?_⟩
    intro v hv
    simp only [List.mem_singleton] at hv
    subst hv
    rcases List.mem_append.1 hr with hr | hr
    · obtain ⟨l, hl, rfl⟩ := List.mem_map.1 hr
      exact (hN.levels l hl).2.1
    · rw [List.mem_singleton] at hr
      rw [hr]
      exact hN.last.2.1)
  rw [← hdev] at hhier
  have key : ∀ H, HierNew E.dev E.eps lower mode o N.sizes (.ok H) → ∃ rows, N.logits E H feats = .ok rows := by
    intro H hH
    obtain ⟨os, hc, hlen, hos⟩ := hier_levelOk heps p3 hno (by omega) hH (netSmall_pos hN hH)
    unfold NetSmall.logits
    rw [hc]
    dsimp only
    obtain ⟨f0, e0⟩ : ∃ f0, (o.flattenFeatures feats).1 = .ok f0 := by
      have hg : o.getSizes = (.ok ([points.length], sizes), o) := by
        unfold CloudObj.getSizes
        rw [p5]
      unfold CloudObj.flattenFeatures
      rw [hg]
      dsimp only
      rw [dif_pos]
      · exact ⟨_, rfl⟩
      · have h1 := congrArg List.length p7
        rw [List.length_ofFn, flattenRows_length V _ _ hP.len.symm hP.block hP.size] at h1
        rw [flattenRows_length V _ _ (hf.trans hP.len.symm) hfV hP.size, h1]
    obtain ⟨x, e1⟩ := netSmallLoop_returns E hdev heps N hN.last N.levels hN.levels (B := o.c.B) os o f0 (by
      intro p hp
      rcases List.mem_cons.1 hp with rfl | hp
      · exact ⟨p3, rfl, hn⟩
      · have := (hos p hp).1
        exact ⟨this.valid, this.batch, this.n⟩) (by simpa [NetSmall.sizes] using hlen)
    rw [e0]
    dsimp only
    rw [e1]
    exact ⟨_, rfl⟩
  unfold NetSmall.Call
  rw [ho]
  dsimp only
  constructor
  · obtain ⟨H, hH⟩ := hhier.1
    obtain ⟨rows, hr⟩ := key H hH
    exact ⟨rows, Or.inr ⟨H, hH, hr.symm⟩⟩
  · rintro e (⟨e', h1, _⟩ | ⟨H, hH, h1⟩)
    · exact hhier.2 e' h1
    · obtain ⟨rows, hr⟩ := key H hH
      rw [hr] at h1
      cases h1

/-! ### Shapes that are not small -/

theorem levelStep_covers {dev : Device} {eps : ℝ} (heps : 0 < eps) {lower : String → String}
    {mode : String} {bs : Option (List ℕ)} {o o' : CloudObj (Fin (k + 2) → ℝ)} {a : Arg ℝ}
    {cs : Fin (k + 2) → ℝ} {h : Nbh k ℝ} (hv : o.c.Valid)
    (hst : LevelStep dev eps lower mode bs o a (.ok (o', cs, h))) (hpos : 0 < cs 0) (hmin : ∀ d, cs 0 ≤ cs d)
    (hm : lower mode ∈ ["poisson", "poisson disk", "poisson_disk"]) (p : Fin o.c.n) :
    ∃ i, o'.c.batch i = o.c.batch p ∧ normLt (fun d => o'.c.pts i d - o.c.pts p d) (cs 0) := by
  cases hst with
  | ok l h c hl hnew hs hb' =>
    obtain ⟨out, ho, hc⟩ := ((C28_sample_modes_partial h lower mode).1 hm _).mp hs
    simp only [Except.ok.injEq] at hc
    subst hc
    obtain ⟨e1, e2, _⟩ := new_pairs hnew
    have hreg : Regular h := by
      obtain ⟨g', r', s', q', nb'⟩ := h
      simp only at e1 e2
      subst e1 e2
      exact ⟨hv, hpos, hmin, rfl, heps⟩
    have key : ∀ (c' : Cloud (Fin (k + 2) → ℝ)), c' = (poissonSample h out).1 → 
        ∃ i : Fin c'.n, c'.batch i = o.c.batch p ∧ normLt (fun d => c'.pts i d - o.c.pts p d) (vecOf (D := k + 2) l 0) := by
      intro c' hc'
      subst hc'
      exact C26_poisson_covers dev _ _ h hnew hreg out ho p
    exact key _ (by rw [setBatchShape_c]; rfl)

/-- A network with one convolution. -/
noncomputable def exSmall : NetSmall 2 := ⟨[], exConv, 1, 2, ⟨exNorm, exLin, exNorm, exLin⟩⟩

theorem exSmall_ok : exSmall.Ok :=
  ⟨⟨trivial, by norm_num [exSmall], by norm_num [exSmall]⟩, by simp [exSmall]⟩

/-- One shape of two points at distance three. -/
def exWide : List (List (Fin 2 → ℝ)) := [[![0, 0], ![3, 0]]]

/-- **C98, one row per shape, negative**: a single shape with two points further
apart than the last sampling radius gets more than one row of logits. -/
theorem C98_one_row_per_shape_false : ¬ ∀ (E : NetEnv) (N : NetSmall 2), 0 < E.eps → N.Ok → ∀ (V : ℕ)
    (points : List (List (Fin 2 → ℝ))) (sizes : List ℕ), PaddedOk V points sizes → (∀ s ∈ sizes, 0 < s) →
    ∀ (feats : List (List (ℕ → ℝ))) rows, N.Call E id "poisson" points.length V points feats sizes (.ok rows) →
    rows.length = points.length := by
  intro hall
  have hP : PaddedOk 2 exWide [2] := ⟨rfl, by simp [exWide], by simp⟩
  have he : 0 < exEnv.eps := by norm_num [exEnv]
  obtain ⟨rows, h⟩ := (C98_returns exEnv rfl he exSmall exSmall_ok id "poisson" (by simp) hP (by simp) (by simp [exWide])
    (feats := [List.replicate 2 (fun _ => 1)]) rfl (by simp)).1
  have hr := hall exEnv exSmall he exSmall_ok 2 exWide [2] hP (by simp) _ rows h
  unfold NetSmall.Call at h
  split at h
  · cases h
  rename_i o ho
  rcases h with ⟨e, _, he'⟩ | ⟨H, hH, h⟩
  · cases he'
  obtain ⟨p1, p2, p3, _, _, _, _, _, p8⟩ := newPadded_spec hP.len hP.block hP.size ho
  obtain ⟨q, hq, hlen⟩ := C98_rows exEnv exSmall h.symm
  have hsz := hier_sizes hH
  have hpos := netSmall_pos exSmall_ok hH
  rcases hH with ⟨ls, hls, heq⟩ | ⟨e, _, heq⟩
  swap
  · simp at heq
  simp only [Except.ok.injEq] at heq
  subst heq
  dsimp only at hsz hpos hq
  have hls' : Levels exEnv.dev exEnv.eps id "poisson" o.batchShape o [⟨[1], [exSmall.lastSampleRadius]⟩] (.ok ls) := hls
  cases hls' with
  | cons _ _ _ p cs h' rest hst hrest =>
    cases hrest
    simp only [List.map_cons, List.map_nil, List.getLast?_cons_cons, List.getLast?_singleton, Option.some.injEq] at hq
    subst hq
    have hcs : cs = fun _ => 1 := by
      simpa [exSmall] using hsz
    subst hcs
    have hc := levelStep_covers he p3 hst one_pos (fun _ => le_rfl) (by simp)
    have hmem : ∀ x ∈ [![0, 0], ![3, 0]], ∃ i, o.c.pts i = x := by
      intro x hx
      have h0 := p8 0
      have h1 : ((exWide.getD 0 []).take ([2].getD 0 0)) = [![0, 0], ![3, 0]] := rfl
      rw [h1] at h0
      rw [← h0, List.mem_map] at hx
      obtain ⟨i, _, hi⟩ := hx
      exact ⟨i, hi⟩
    obtain ⟨i, hi⟩ := hmem ![0, 0] (by simp)
    obtain ⟨j, hj⟩ := hmem ![3, 0] (by simp)
    obtain ⟨a, _, ha⟩ := hc i
    obtain ⟨b, _, hb⟩ := hc j
    have hn1 : p.c.n = 1 := by rw [← hlen, hr]; rfl
    have hab : a = b := by
      apply Fin.ext
      have := a.isLt
      have := b.isLt
      omega
    subst hab
    rw [hi] at ha
    rw [hj] at hb
    obtain ⟨_, ha⟩ := ha
    obtain ⟨_, hb⟩ := hb
    rw [Fin.sum_univ_two] at ha hb
    simp at ha hb
    nlinarith [mul_self_nonneg (p.c.pts a 1)]

/-- Two small shapes with one and two points. -/
noncomputable def exTiny : List (List (Fin 2 → ℝ)) := [[![0, 0], ![0, 0]], [![2, 0], ![2, 1 / 4]]]

/-- The second with its points in the other order. -/
noncomputable def exTiny' : List (List (Fin 2 → ℝ)) := [[![2, 1 / 4], ![2, 0]]]

/-- The hypotheses of C98 are met. -/
example : ∃ rows rows', exSmall.Call exEnv id "average" 2 2 exTiny [[fun _ => 1, fun _ => 0], [fun _ => 2, fun _ => 3]] [1, 2]
      (.ok rows) ∧
    exSmall.Call exEnv id "average" 1 2 exTiny' [[fun _ => 3, fun _ => 2]] [2] (.ok rows') ∧
    rows.length = 2 ∧ rows'[0]? = rows[1]? := by
  have hP : PaddedOk 2 exTiny [1, 2] := ⟨rfl, by simp [exTiny], by simp⟩
  have hP' : PaddedOk 2 exTiny' [2] := ⟨rfl, by simp [exTiny'], by simp⟩
  have he : 0 < exEnv.eps := by norm_num [exEnv]
  obtain ⟨rows, h⟩ := (C98_returns exEnv rfl he exSmall exSmall_ok id "average" (by simp) hP (by simp) (by simp [exTiny])
    (feats := [[fun _ => 1, fun _ => 0], [fun _ => 2, fun _ => 3]]) rfl (by simp)).1
  obtain ⟨rows', h'⟩ := (C98_returns exEnv rfl he exSmall exSmall_ok id "average" (by simp) hP' (by simp) (by simp [exTiny'])
    (feats := [[fun _ => 3, fun _ => 2]]) rfl (by simp)).1
  have hs : ShapesSmall exEnv.eps exSmall.lastSampleRadius id "average"
      (List.zipWith (fun l s => l.take s) exTiny [1, 2]) := by
    refine Or.inr ⟨by simp, 1 / 4, by norm_num [exEnv, exSmall], ?_⟩
    simp [exTiny, Fin.forall_fin_two]
  have hs' : ShapesSmall exEnv.eps exSmall.lastSampleRadius id "average"
      (List.zipWith (fun l s => l.take s) exTiny' [2]) := by
    refine Or.inr ⟨by simp, 1 / 4, by norm_num [exEnv, exSmall], ?_⟩
    simp [exTiny', Fin.forall_fin_two]
  refine ⟨rows, rows', h, h', C98_one_row_per_shape_partial exEnv he exSmall exSmall_ok id "average" hP (by simp) hs h,
    C98_logits_of_a_shape_partial exEnv rfl he exSmall exSmall_ok id "average" (by simp) hP hP' (by simp) (by simp) hs hs'
      rfl (by simp) rfl (by simp) h h' 1 0 (by simp [exTiny]) (by simp [exTiny']) ?_⟩
  simp only [exTiny, exTiny', List.getD_cons_succ, List.getD_cons_zero, List.take_succ_cons, List.take_zero, List.zip_cons_cons,
    List.zip_nil_left]
  exact List.Perm.swap _ _ _

end
end PC
