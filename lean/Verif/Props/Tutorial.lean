import Verif.Props.Nets2
import Verif.Props.Train
import Verif.Tutorial

/-!
# Properties C129, C130, C131: the tutorial notebook
-/

set_option linter.unusedVariables false
set_option linter.unusedSectionVars false

namespace PC

section
variable {k : ℕ}

/-! ## C129: the network -/

/-- The network as built by `mymodel.__init__` of the notebook with positive
radii. -/
structure NetTut.Ok (N : NetTut (k + 2)) : Prop where
  last : N.last.Ok ∧ 0 < N.lastSampleRadius ∧ 0 < N.lastConvRadius
  levels : ∀ l ∈ N.levels, l.conv.Ok ∧ 0 < l.sampleRadius ∧ 0 < l.convRadius

theorem netTutLoop_cons (E : NetEnv) (N : NetTut (k + 2)) (o o' : CloudObj (Fin (k + 2) → ℝ))
    (f : Fin o.c.n → ℕ → ℝ) (os : List (CloudObj (Fin (k + 2) → ℝ))) (l : LevelTut (k + 2))
    (ls : List (LevelTut (k + 2))) : netTutLoop E N o f (o' :: os) (l :: ls) =
    match l.conv.call E o.c o'.c l.convRadius f with
    | .error e => .error e
    | .ok g => netTutLoop E N o' (E.bnAct l.bn g) os ls := by
  cases os <;> rfl

theorem netTutLoop_elem (E : NetEnv) (hE : E.training = false) (heps : 0 < E.eps) {b b' : ℕ} (N : NetTut (k + 2))
    (hlast : N.last.Ok ∧ 0 < N.lastSampleRadius ∧ 0 < N.lastConvRadius) (levels : List (LevelTut (k + 2)))
    (hl : ∀ l ∈ levels, l.conv.Ok ∧ 0 < l.sampleRadius ∧ 0 < l.convRadius) :
    ∀ (os os' : List (CloudObj (Fin (k + 2) → ℝ))) (o o' : CloudObj (Fin (k + 2) → ℝ)) (f : Fin o.c.n → ℕ → ℝ)
    (f' : Fin o'.c.n → ℕ → ℝ) (s : SameElem o.c o'.c b b') (hf : s.Agree f f')
    (ho : ∀ p ∈ o :: os, p.c.Valid) (ho' : ∀ p ∈ o' :: os', p.c.Valid)
    (hos : List.Forall₂ (fun o o' : CloudObj (Fin (k + 2) → ℝ) => Nonempty (SameElem o.c o'.c b b')) os os')
    (p p' : CloudObj (Fin (k + 2) → ℝ)) (g : Fin p.c.n → ℕ → ℝ) (g' : Fin p'.c.n → ℕ → ℝ)
    (h : netTutLoop E N o f os levels = .ok ⟨p, g⟩) (h' : netTutLoop E N o' f' os' levels = .ok ⟨p', g'⟩),
    ∃ t : SameElem p.c p'.c b b', t.Agree g g' := by
  induction levels with
  | nil =>
    intro os os' o o' f f' s hf ho ho' hos p p' g g' h h'
    cases hos with
    | nil => simp [netTutLoop] at h
    | @cons q q' os os' hq hos =>
      obtain ⟨t⟩ := hq
      cases hos with
      | cons _ _ => simp [netTutLoop] at h
      | nil =>
        unfold netTutLoop at h h'
        split at h
        · cases h
        rename_i u e1
        split at h'
        · cases h'
        rename_i u' e1'
        cases h
        cases h'
        exact ⟨t, NetConv.call_elem E hlast.1 s t hlast.2.2 heps (ho o (by simp)) (ho' o' (by simp)) hf e1 e1'⟩
  | cons l ls ih =>
    intro os os' o o' f f' s hf ho ho' hos p p' g g' h h'
    cases hos with
    | nil => simp [netTutLoop] at h
    | @cons q q' os os' hq hos =>
      obtain ⟨t⟩ := hq
      obtain ⟨l1, l2, l3⟩ := hl l (by simp)
      rw [netTutLoop_cons] at h h'
      split at h
      · cases h
      rename_i u e1
      split at h'
      · cases h'
      rename_i u' e1'
      have a1 := NetConv.call_elem E l1 s t l3 heps (ho o (by simp)) (ho' o' (by simp)) hf e1 e1'
      exact ih (fun l hx => hl l (by simp [hx])) os os' q q' _ _ t (bnAct_elem E hE l.bn t a1)
        (fun p hp => ho p (by simp at hp ⊢; tauto))
        (fun p hp => ho' p (by simp at hp ⊢; tauto)) hos p p' g g' h h'

theorem netTutLoop_last (E : NetEnv) (N : NetTut (k + 2)) (levels : List (LevelTut (k + 2))) :
    ∀ (os : List (CloudObj (Fin (k + 2) → ℝ))) (o : CloudObj (Fin (k + 2) → ℝ)) (f : Fin o.c.n → ℕ → ℝ)
    (p : CloudObj (Fin (k + 2) → ℝ)) (g : Fin p.c.n → ℕ → ℝ)
    (h : netTutLoop E N o f os levels = .ok ⟨p, g⟩), (o :: os).getLast? = some p := by
  induction levels with
  | nil =>
    intro os o f p g h
    match os, h with
    | [], h => simp [netTutLoop] at h
    | [q], h =>
      unfold netTutLoop at h
      split at h
      · cases h
      cases h
      simp
    | _ :: _ :: _, h => simp [netTutLoop] at h
  | cons l ls ih =>
    intro os o f p g h
    match os, h with
    | [], h => simp [netTutLoop] at h
    | q :: os, h =>
      rw [netTutLoop_cons] at h
      split at h
      · cases h
      rw [List.getLast?_cons_cons]
      exact ih os q _ p g h

theorem headTut_elem (E : NetEnv) (hE : E.training = false) (h : NetHead) {n n' : ℕ} (f : Fin n → ℕ → ℝ)
    (f' : Fin n' → ℕ → ℝ) (b : Fin n) (b' : Fin n') (hf : f' b' = f b) : h.runTut E f' b' = h.runTut E f b := by
  funext ch
  simp only [NetHead.runTut, Lin.apply, conv1x1, NetEnv.bnAct, BNorm.apply, hE, Bool.false_eq_true, if_false, hf]

/-- The point cloud built without sizes is the one built with all sizes `V`. -/
theorem newPadded_noSizes {α : Type*} (V : ℕ) (points : List (List α)) :
    CloudObj.newPadded [points.length] V points none none =
      CloudObj.newPadded [points.length] V points (some (List.replicate points.length V)) (some points.length) := by
  unfold CloudObj.newPadded
  simp only [Option.getD_none, Option.getD_some, List.prod_cons, List.prod_nil, mul_one]

theorem paddedOk_full {α : Type*} {V : ℕ} {points : List (List α)} (h : ∀ s ∈ points, s.length = V) :
    PaddedOk V points (List.replicate points.length V) :=
  ⟨by simp, h, fun s hs => (List.eq_of_mem_replicate hs).le⟩

theorem netTut_pos {N : NetTut (k + 2)} (hN : N.Ok) {dev : Device} {eps : ℝ} {lower : String → String} {mode : String}
    {o : CloudObj (Fin (k + 2) → ℝ)} {H : Hier k ℝ} (hH : HierNew dev eps lower mode o N.sizes (.ok H)) :
    ∀ cs ∈ H.cellSizes, ∀ d, 0 < cs d := by
  intro cs hcs d
  rw [hier_sizes hH, List.mem_map] at hcs
  obtain ⟨r, hr, rfl⟩ := hcs
  rcases List.mem_append.1 hr with hr | hr
  · obtain ⟨l, hl, rfl⟩ := List.mem_map.1 hr
    exact (hN.levels l hl).2.1
  · rw [List.mem_singleton] at hr
    rw [hr]
    exact hN.last.2.1

/-- **C129, one row per shape**: whenever the network returns, in training or not and
with either sampling method, it returns one row of logits per shape of the batch. -/
theorem C129_one_row_per_shape (E : NetEnv) (heps : 0 < E.eps) (N : NetTut (k + 2)) (hN : N.Ok)
    (lower : String → String) (mode : String) {V : ℕ} {points : List (List (Fin (k + 2) → ℝ))}
    (hV : ∀ s ∈ points, s.length = V) {feats : List (List (ℕ → ℝ))} {rows : List (ℕ → ℝ)}
    (h : N.Call E lower mode V points feats (.ok rows)) : rows.length = points.length := by
  unfold NetTut.Call at h
  rw [newPadded_noSizes] at h
  split at h
  · cases h
  rename_i o ho
  rcases h with ⟨e, _, he⟩ | ⟨H, hH, h⟩
  · cases he
  have hP := paddedOk_full hV
  obtain ⟨p1, p2, p3, _⟩ := newPadded_spec hP.len hP.block hP.size ho
  unfold NetTut.logits at h
  split at h
  swap
  · cases h
  rename_i o1 os hcl
  split at h
  · cases h
  rename_i f0 e0
  split at h
  · cases h
  rename_i p f e1
  simp only [Except.ok.injEq] at h
  subst h
  rw [List.length_ofFn]
  have hp := netTutLoop_last E N _ _ _ _ _ _ e1
  rw [← hcl] at hp
  rw [(hier_clouds heps p3 hH (netTut_pos hN hH) p (List.mem_of_getLast? hp)).2, p2]

/-- The rows of zipped blocks. -/
theorem zipWith_zip_getD {α β : Type*} (points : List (List α)) (feats : List (List β)) (b : ℕ)
    (hl : feats.length = points.length) :
    (List.zipWith List.zip points feats).getD b [] = (points.getD b []).zip (feats.getD b []) := by
  by_cases hb : b < points.length
  · have hb2 : b < feats.length := by omega
    have hb3 : b < (List.zipWith List.zip points feats).length := by simp; omega
    rw [List.getD_eq_getElem?_getD, List.getD_eq_getElem?_getD, List.getD_eq_getElem?_getD,
      List.getElem?_eq_getElem hb, List.getElem?_eq_getElem hb2, List.getElem?_eq_getElem hb3]
    simp
  · have hb3 : ¬ b < (List.zipWith List.zip points feats).length := by simp; omega
    rw [List.getD_eq_getElem?_getD, List.getD_eq_getElem?_getD,
      List.getElem?_eq_none (by omega), List.getElem?_eq_none (by omega)]
    simp

/-- **C129, the logits of a shape**: at inference with cell averages, the logits of a
shape are determined by its points and their features: they do not depend on the
other shapes, on the number of shapes and on the order of the points. -/
theorem C129_logits_of_a_shape (E : NetEnv) (hE : E.training = false) (heps : 0 < E.eps) (N : NetTut (k + 2))
    (hN : N.Ok) (lower : String → String) (mode : String) (hm : lower mode ∈ ["average", "cell average", "cell_average"])
    {V V' : ℕ} {points points' : List (List (Fin (k + 2) → ℝ))}
    (hV : ∀ s ∈ points, s.length = V) (hV' : ∀ s ∈ points', s.length = V')
    {feats feats' : List (List (ℕ → ℝ))} (hf : feats.length = points.length) (hfV : ∀ row ∈ feats, row.length = V)
    (hf' : feats'.length = points'.length) (hfV' : ∀ row ∈ feats', row.length = V') {rows rows' : List (ℕ → ℝ)}
    (h : N.Call E lower mode V points feats (.ok rows))
    (h' : N.Call E lower mode V' points' feats' (.ok rows')) (b b' : ℕ) (hb : b < points.length)
    (hb' : b' < points'.length)
    (hperm : ((points.getD b []).zip (feats.getD b [])).Perm ((points'.getD b' []).zip (feats'.getD b' []))) :
    rows'[b']? = rows[b]? := by
  unfold NetTut.Call at h h'
  rw [newPadded_noSizes] at h h'
  split at h
  · cases h
  rename_i o ho
  split at h'
  · cases h'
  rename_i o' ho'
  rcases h with ⟨e, _, he⟩ | ⟨H, hH, h⟩
  · cases he
  rcases h' with ⟨e, _, he⟩ | ⟨H', hH', h'⟩
  · cases he
  have hP := paddedOk_full hV
  have hP' := paddedOk_full hV'
  obtain ⟨p1, p2, p3, _⟩ := newPadded_spec hP.len hP.block hP.size ho
  obtain ⟨q1, q2, q3, _⟩ := newPadded_spec hP'.len hP'.block hP'.size ho'
  have hh := (C31_hierarchy_well_formed _ _ heps lower mode o p3 _ H hH (netTut_pos hN hH)).2.1
  have hh' := (C31_hierarchy_well_formed _ _ heps lower mode o' q3 _ H' hH' (netTut_pos hN hH')).2.1
  have hcl := hier_clouds heps p3 hH (netTut_pos hN hH)
  have hcl' := hier_clouds heps q3 hH' (netTut_pos hN hH')
  unfold NetTut.logits at h h'
  split at h
  swap
  · cases h
  rename_i o1 os hc1
  split at h'
  swap
  · cases h'
  rename_i o1' os' hc1'
  rw [hc1, List.head?_cons, Option.some.injEq] at hh
  rw [hc1', List.head?_cons, Option.some.injEq] at hh'
  subst hh hh'
  split at h
  · cases h
  rename_i f ef
  split at h
  · cases h
  rename_i p g e1
  split at h'
  · cases h'
  rename_i f' ef'
  split at h'
  · cases h'
  rename_i p' g' e1'
  simp only [Except.ok.injEq] at h h'
  subst h h'
  -- the element of the input
  have htake : ∀ {α β : Type} {V : ℕ} {points : List (List α)} (feats : List (List β)) (b : ℕ), b < points.length →
      (∀ s ∈ points, s.length = V) → ((points.getD b []).zip (feats.getD b [])).take
        ((List.replicate points.length V).getD b 0) = (points.getD b []).zip (feats.getD b []) := by
    intro α β V points feats b hb hV
    rw [List.take_of_length_le]
    have hr : (List.replicate points.length V).getD b 0 = V := by
      rw [List.getD_eq_getElem?_getD, List.getElem?_replicate, if_pos hb, Option.getD_some]
    rw [List.length_zip, hr]
    refine (min_le_left _ _).trans (le_of_eq ?_)
    rw [List.getD_eq_getElem?_getD, List.getElem?_eq_getElem hb]
    exact hV _ (List.getElem_mem _)
  have a1 := padded_features hP ho hf hfV ef b
  have a2 := padded_features hP' ho' hf' hfV' ef' b'
  rw [zipWith_zip_getD _ _ _ hf, htake _ _ hb hV] at a1
  rw [zipWith_zip_getD _ _ _ hf', htake _ _ hb' hV'] at a2
  rw [← a1, ← a2] at hperm
  obtain ⟨s, hs⟩ := SameElem.ofPermFeatures hperm
  have hF := (C94_hierarchy heps hm p3 q3 s _ H H' hH hH' (netTut_pos hN hH)).2
  rw [hc1, hc1', List.forall₂_cons] at hF
  obtain ⟨t, ht⟩ := netTutLoop_elem E hE heps N hN.last N.levels hN.levels os os' o1 o1' f f' s hs
    (fun q hq => (hcl q (by rw [hc1]; exact hq)).1) (fun q hq => (hcl' q (by rw [hc1']; exact hq)).1) hF.2 p p' g g' e1 e1'
  have hpB := (hcl p (List.mem_of_getLast? (by rw [hc1]; exact netTutLoop_last E N _ _ _ _ _ _ e1))).2
  have hpB' := (hcl' p' (List.mem_of_getLast? (by rw [hc1']; exact netTutLoop_last E N _ _ _ _ _ _ e1'))).2
  have hbB : b < p.c.B := by omega
  have hbB' : b' < p'.c.B := by omega
  rw [List.getElem?_ofFn, List.getElem?_ofFn, dif_pos hbB, dif_pos hbB']
  congr 1
  refine headTut_elem E hE N.head _ _ ⟨b, hbB⟩ ⟨b', hbB'⟩ ?_
  funext ch
  rw [C94_global_pooling t .mean hbB hbB' g g' ht ch]

theorem netTutLoop_returns (E : NetEnv) (hdev : E.dev = .gpu) (heps : 0 < E.eps) (N : NetTut (k + 2))
    (hlast : N.last.Ok ∧ 0 < N.lastSampleRadius ∧ 0 < N.lastConvRadius) (levels : List (LevelTut (k + 2)))
    (hl : ∀ l ∈ levels, l.conv.Ok ∧ 0 < l.sampleRadius ∧ 0 < l.convRadius) {B : ℕ} :
    ∀ (os : List (CloudObj (Fin (k + 2) → ℝ))) (o : CloudObj (Fin (k + 2) → ℝ)) (f : Fin o.c.n → ℕ → ℝ),
    (∀ p ∈ o :: os, p.c.Valid ∧ p.c.B = B ∧ 0 < p.c.n) → os.length = levels.length + 1 →
    ∃ x, netTutLoop E N o f os levels = .ok x := by
  induction levels with
  | nil =>
    intro os o f ho hlen
    obtain ⟨o', rfl⟩ := List.length_eq_one_iff.1 hlen
    have h1 := ho o (by simp)
    have h2 := ho o' (by simp)
    obtain ⟨g, e⟩ := NetConv.call_returns E hdev heps hlast.1 hlast.2.2 h1.1 h2.1 (h2.2.1.trans h1.2.1.symm) h1.2.2 h2.2.2 f
    unfold netTutLoop
    rw [e]
    exact ⟨_, rfl⟩
  | cons l ls ih =>
    intro os o f ho hlen
    cases os with
    | nil => simp at hlen
    | cons o' os =>
      have h1 := ho o (by simp)
      have h2 := ho o' (by simp)
      obtain ⟨g, e⟩ := NetConv.call_returns E hdev heps (hl l (by simp)).1 (hl l (by simp)).2.2 h1.1 h2.1
        (h2.2.1.trans h1.2.1.symm) h1.2.2 h2.2.2 f
      rw [netTutLoop_cons, e]
      exact ih (fun l hl' => hl l (by simp [hl'])) os o' _ (fun p hp => ho p (List.mem_cons_of_mem _ hp)) (by simpa using hlen)

/-- **C129, the call returns**: on the GPU, for at least one shape with at least one
point and features of the same shape, the network returns logits and raises no
exception, with either sampling method. -/
theorem C129_returns (E : NetEnv) (hdev : E.dev = .gpu) (heps : 0 < E.eps) (N : NetTut (k + 2)) (hN : N.Ok)
    (lower : String → String) (mode : String)
    (hm : lower mode ∈ ["poisson", "poisson disk", "poisson_disk", "average", "cell average", "cell_average"])
    {V : ℕ} {points : List (List (Fin (k + 2) → ℝ))} (hV : ∀ s ∈ points, s.length = V) (hVpos : 0 < V)
    (hB : points ≠ []) {feats : List (List (ℕ → ℝ))}
    (hf : feats.length = points.length) (hfV : ∀ row ∈ feats, row.length = V) :
    (∃ rows, N.Call E lower mode V points feats (.ok rows)) ∧
    ∀ e, ¬ N.Call E lower mode V points feats (.error e) := by
  have hP := paddedOk_full hV
  obtain ⟨o, ho⟩ := newPadded_returns hP
  obtain ⟨_, p2, p3, p4, p5, _, p7, _, p8⟩ := newPadded_spec hP.len hP.block hP.size ho
  have hBpos : 0 < points.length := List.length_pos_iff.2 hB
  have hno := padded_noEmpty hP ho (fun s hs => by rw [List.eq_of_mem_replicate hs]; exact hVpos)
  have hn : 0 < o.c.n := by
    obtain ⟨i, _⟩ := hno 0 (by omega)
    exact i.pos
  have hhier := C31_constructor_succeeds E.eps heps lower mode hm o p3 hn (by
    intro sh hsh
    rw [p4, Option.some.injEq] at hsh
    rw [← hsh, p2]
    simp) N.sizes (by
    intro a ha
    obtain ⟨r, hr, rfl⟩ := List.mem_map.1 ha
    refine ⟨rfl, le_rfl, by simp, ?_⟩
    intro v hv
    simp only [List.mem_singleton] at hv
    subst hv
    rcases List.mem_append.1 hr with hr | hr
    · obtain ⟨l, hl, rfl⟩ := List.mem_map.1 hr
      exact (hN.levels l hl).2.1
    · rw [List.mem_singleton] at hr
      rw [hr]
      exact hN.last.2.1)
  rw [← hdev] at hhier
  have key : ∀ H, HierNew E.dev E.eps lower mode o N.sizes (.ok H) → ∃ rows, N.logits E H feats = .ok rows := by
    intro H hH
    obtain ⟨os, hc, hlen, hos⟩ := hier_levelOk heps p3 hno (by omega) hH (netTut_pos hN hH)
    unfold NetTut.logits
    rw [hc]
    dsimp only
    obtain ⟨f0, e0⟩ : ∃ f0, (o.flattenFeatures feats).1 = .ok f0 := by
      have hg : o.getSizes = (.ok ([points.length], List.replicate points.length V), o) := by
        unfold CloudObj.getSizes
        rw [p5]
      unfold CloudObj.flattenFeatures
      rw [hg]
      dsimp only
      rw [dif_pos]
      · exact ⟨_, rfl⟩
      · have h1 := congrArg List.length p7
        rw [List.length_ofFn, flattenRows_length V _ _ hP.len.symm hP.block hP.size] at h1
        rw [flattenRows_length V _ _ (hf.trans hP.len.symm) hfV hP.size, h1]
    obtain ⟨x, e1⟩ := netTutLoop_returns E hdev heps N hN.last N.levels hN.levels (B := o.c.B) os o f0 (by
      intro p hp
      rcases List.mem_cons.1 hp with rfl | hp
      · exact ⟨p3, rfl, hn⟩
      · have := (hos p hp).1
        exact ⟨this.valid, this.batch, this.n⟩) (by simpa [NetTut.sizes] using hlen)
    rw [e0]
    dsimp only
    rw [e1]
    exact ⟨_, rfl⟩
  unfold NetTut.Call
  rw [newPadded_noSizes, ho]
  dsimp only
  constructor
  · obtain ⟨H, hH⟩ := hhier.1
    obtain ⟨rows, hr⟩ := key H hH
    exact ⟨rows, Or.inr ⟨H, hH, hr.symm⟩⟩
  · rintro e (⟨e', h1, _⟩ | ⟨H, hH, h1⟩)
    · exact hhier.2 e' h1
    · obtain ⟨rows, hr⟩ := key H hH
      rw [hr] at h1
      cases h1

/-- A network with two convolutions. -/
noncomputable def exTut : NetTut 2 := ⟨[⟨exConv, exNorm, 1 / 2, 1⟩], exConv, 1, 2, ⟨exNorm, exLin, exNorm, exLin⟩⟩

theorem exTut_ok : exTut.Ok :=
  ⟨⟨trivial, by norm_num [exTut], by norm_num [exTut]⟩, by
    intro l hl
    simp only [exTut, List.mem_singleton] at hl
    subst hl
    exact ⟨trivial, by norm_num, by norm_num⟩⟩

/-- The hypotheses of C129 are met: two wide shapes, and the second of them alone with
its points in the other order. -/
example : ∃ rows rows', exTut.Call exEnv id "average" 2 [[![0, 0], ![3, 0]], [![2, 0], ![2, 5]]]
      [[fun _ => 1, fun _ => 0], [fun _ => 2, fun _ => 3]] (.ok rows) ∧
    exTut.Call exEnv id "average" 2 [[![2, 5], ![2, 0]]] [[fun _ => 3, fun _ => 2]] (.ok rows') ∧
    rows.length = 2 ∧ rows'[0]? = rows[1]? := by
  have he : 0 < exEnv.eps := by norm_num [exEnv]
  have hV : ∀ s ∈ ([[![0, 0], ![3, 0]], [![2, 0], ![2, 5]]] : List (List (Fin 2 → ℝ))), s.length = 2 := by simp
  have hV' : ∀ s ∈ ([[![2, 5], ![2, 0]]] : List (List (Fin 2 → ℝ))), s.length = 2 := by simp
  obtain ⟨rows, h⟩ := (C129_returns exEnv rfl he exTut exTut_ok id "average" (by simp) hV (by simp) (by simp)
    (feats := [[fun _ => 1, fun _ => 0], [fun _ => 2, fun _ => 3]]) rfl (by simp)).1
  obtain ⟨rows', h'⟩ := (C129_returns exEnv rfl he exTut exTut_ok id "average" (by simp) hV' (by simp) (by simp)
    (feats := [[fun _ => 3, fun _ => 2]]) rfl (by simp)).1
  refine ⟨rows, rows', h, h', C129_one_row_per_shape exEnv he exTut exTut_ok id "average" hV h,
    C129_logits_of_a_shape exEnv rfl he exTut exTut_ok id "average" (by simp) hV hV' rfl (by simp) rfl (by simp) h h' 1 0
      (by simp) (by simp) ?_⟩
  simp only [List.getD_cons_succ, List.getD_cons_zero, List.zip_cons_cons, List.zip_nil_left]
  exact List.Perm.swap _ _ _

end
end PC
