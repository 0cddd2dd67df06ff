import Verif.Props.OptimTut
import Verif.Props.OrderGrad
import Verif.Props.Move2

/-!
# The network of the tutorial and the order of the batch (C165, C166)
-/

set_option linter.unusedVariables false
set_option linter.unusedSectionVars false

namespace PC

section
variable {k : ℕ} {σ : Equiv.Perm ℕ}

theorem netTutLoop_batch (E : NetEnv) (heps : 0 < E.eps) (N : NetTut (k + 2))
    (hlast : N.last.Ok ∧ 0 < N.lastSampleRadius ∧ 0 < N.lastConvRadius) (levels : List (LevelTut (k + 2)))
    (hl : ∀ l ∈ levels, l.conv.Ok ∧ 0 < l.sampleRadius ∧ 0 < l.convRadius) :
    ∀ (os os' : List (CloudObj (Fin (k + 2) → ℝ))) (o o' : CloudObj (Fin (k + 2) → ℝ)) (f : Fin o.c.n → ℕ → ℝ)
    (f' : Fin o'.c.n → ℕ → ℝ) (s : SameBatch o.c o'.c σ) (hf : ∀ p, f' (s.e p) = f p)
    (ho : ∀ p ∈ o :: os, p.c.Valid) (ho' : ∀ p ∈ o' :: os', p.c.Valid) (hos : SameLevels σ os os')
    (p p' : CloudObj (Fin (k + 2) → ℝ)) (g : Fin p.c.n → ℕ → ℝ) (g' : Fin p'.c.n → ℕ → ℝ)
    (h : netTutLoop E N o f os levels = .ok ⟨p, g⟩) (h' : netTutLoop E N o' f' os' levels = .ok ⟨p', g'⟩),
    ∃ t : SameBatch p.c p'.c σ, ∀ q, g' (t.e q) = g q := by
  induction levels with
  | nil =>
    intro os os' o o' f f' s hf ho ho' hos p p' g g' h h'
    cases hos with
    | nil => simp [netTutLoop] at h
    | @cons q q' os os' hq hos =>
      obtain ⟨t⟩ := hq
      cases hos with
      | cons _ _ => simp [netTutLoop] at h
      | nil =>
        unfold netTutLoop at h h'
        split at h
        · cases h
        rename_i u e1
        split at h'
        · cases h'
        rename_i u' e1'
        cases h
        cases h'
        exact ⟨t, call_batch E hlast.1 s t hlast.2.2 heps (ho o (by simp)) (ho' o' (by simp)) hf e1 e1'⟩
  | cons l ls ih =>
    intro os os' o o' f f' s hf ho ho' hos p p' g g' h h'
    cases hos with
    | nil => simp [netTutLoop] at h
    | @cons q q' os os' hq hos =>
      obtain ⟨t⟩ := hq
      obtain ⟨l1, l2, l3⟩ := hl l (by simp)
      rw [netTutLoop_cons] at h h'
      split at h
      · cases h
      rename_i u e1
      split at h'
      · cases h'
      rename_i u' e1'
      have a1 := call_batch E l1 s t l3 heps (ho o (by simp)) (ho' o' (by simp)) hf e1 e1'
      have a2 := bnAct_equiv E l.bn t.e a1
      exact ih (fun l hx => hl l (by simp [hx])) os os' q q' _ _ t a2 (fun p hp => ho p (by simp at hp ⊢; tauto))
        (fun p hp => ho' p (by simp at hp ⊢; tauto)) hos p p' g g' h h'

theorem headTut_rows (E : NetEnv) (h : NetHead) {B n n' : ℕ} (hn : n = B) (hn' : n' = B)
    (hσ : ∀ b, σ b < B ↔ b < B) {f : Fin n → ℕ → ℝ} {f' : Fin n' → ℕ → ℝ}
    (hf : ∀ b (hb : b < n) (hb' : σ b < n'), f' ⟨σ b, hb'⟩ = f ⟨b, hb⟩) :
    RowsMoved σ (List.ofFn (h.runTut E f)) (List.ofFn (h.runTut E f')) := by
  subst hn
  subst hn'
  refine rowsMoved_ofFn hσ fun b => ?_
  have a1 := bnAct_equiv E h.bn1 (rowPerm σ hσ) (f := f) (f' := f') (fun b => hf b b.isLt _)
  have a3 := bnAct_equiv E h.bn2 (rowPerm σ hσ) (lin_equiv h.dense1 (rowPerm σ hσ) a1)
  exact lin_equiv h.dense2 (rowPerm σ hσ) a3 b

/-- **C165, the tutorial, from the levels**: if the levels of the hierarchies hold the same points with the same input
features, those of element `b` as element `σ b`, the rows are the same, row `b` as row `σ b`, in training and at
inference. -/
theorem C165_tutorial_from_levels (E : NetEnv) (heps : 0 < E.eps) (N : NetTut (k + 2)) (hN : N.Ok)
    {H H' : Hier k ℝ} {B : ℕ} (hσ : ∀ b, σ b < B ↔ b < B)
    (hcl : ∀ p ∈ H.clouds, p.c.Valid ∧ p.c.B = B) (hcl' : ∀ p ∈ H'.clouds, p.c.Valid ∧ p.c.B = B)
    {o o' : CloudObj (Fin (k + 2) → ℝ)} (ho : H.clouds.head? = some o) (ho' : H'.clouds.head? = some o')
    {feats feats' : List (List (ℕ → ℝ))} {rows rows' : List (ℕ → ℝ)}
    {f : Fin o.c.n → ℕ → ℝ} {f' : Fin o'.c.n → ℕ → ℝ} (hf : (o.flattenFeatures feats).1 = .ok f)
    (hf' : (o'.flattenFeatures feats').1 = .ok f') (s : SameBatch o.c o'.c σ) (hs : ∀ q, f' (s.e q) = f q)
    (hF : SameLevels σ H.clouds H'.clouds)
    (h : N.logits E H feats = .ok rows) (h' : N.logits E H' feats' = .ok rows') :
    rows.length = B ∧ RowsMoved σ rows rows' := by
  unfold NetTut.logits at h h'
  split at h
  swap
  · cases h
  rename_i o1 os hcl1
  split at h'
  swap
  · cases h'
  rename_i o1' os' hcl1'
  unfold SameLevels at hF
  rw [hcl1] at hcl ho hF
  rw [hcl1'] at hcl' ho' hF
  simp only [List.head?_cons, Option.some.injEq] at ho ho'
  subst ho ho'
  rw [hf] at h
  rw [hf'] at h'
  dsimp only at h h'
  split at h
  · cases h
  rename_i p g e1
  split at h'
  · cases h'
  rename_i p' g' e1'
  simp only [Except.ok.injEq] at h h'
  subst h h'
  have hp := (hcl p (List.mem_of_getLast? (netTutLoop_last E N _ _ _ _ _ _ e1))).2
  have hp' := (hcl' p' (List.mem_of_getLast? (netTutLoop_last E N _ _ _ _ _ _ e1'))).2
  rw [List.forall₂_cons] at hF
  obtain ⟨u, hu⟩ := netTutLoop_batch E heps N hN.last N.levels hN.levels os os' o1 o1' f f' s hs
    (fun q hq => (hcl q hq).1) (fun q hq => (hcl' q hq).1) hF.2 p p' g g' e1 e1'
  refine ⟨by rw [List.length_ofFn, hp], headTut_rows E N.head hp hp' hσ ?_⟩
  intro b hb hb'
  funext ch
  rw [C94_global_pooling (u.elem b) .mean hb hb' g g' (fun q => hu q) ch]

/-- **C165, the tutorial**: with cell averages, in training and at inference, the order of the shapes of the batch and of
their points, with their features, does not matter: the row of a shape goes to its new place, and the training loss is the
same. -/
theorem C165_tutorial (E : NetEnv) (heps : 0 < E.eps) (N : NetTut (k + 2)) (hN : N.Ok)
    (lower : String → String) (mode : String) (hm : lower mode ∈ ["average", "cell average", "cell_average"])
    {V V' : ℕ} {points points' : List (List (Fin (k + 2) → ℝ))} (hV : ∀ s ∈ points, s.length = V) (hV' : ∀ s ∈ points', s.length = V')
    {feats feats' : List (List (ℕ → ℝ))} (hf : feats.length = points.length) (hfV : ∀ row ∈ feats, row.length = V)
    (hf' : feats'.length = points'.length) (hfV' : ∀ row ∈ feats', row.length = V') {rows rows' : List (ℕ → ℝ)}
    (hM : ShapesMovedTo σ (List.zipWith List.zip points feats) (List.replicate points.length V)
      (List.zipWith List.zip points' feats') (List.replicate points'.length V'))
    (h : N.Call E lower mode V points feats (.ok rows)) (h' : N.Call E lower mode V' points' feats' (.ok rows')) :
    rows.length = points.length ∧ RowsMoved σ rows rows' ∧
      ∀ (C : ℕ) (e : ℝ) (labels labels' : Fin points.length → ℕ), (∀ b b' : Fin points.length, b'.val = σ b → labels' b' = labels b) →
        trainLoss C e labels' (fun b => rows'.getD b 0) = trainLoss C e labels (fun b => rows.getD b 0) := by
  unfold NetTut.Call at h h'
  rw [newPadded_noSizes] at h h'
  split at h
  · cases h
  rename_i o ho
  split at h'
  · cases h'
  rename_i o' ho'
  rcases h with ⟨e, _, he⟩ | ⟨H, hH, h⟩
  · cases he
  rcases h' with ⟨e, _, he⟩ | ⟨H', hH', h'⟩
  · cases he
  have hP := paddedOk_full hV
  have hP' := paddedOk_full hV'
  obtain ⟨p1, p2, p3, _⟩ := newPadded_spec hP.len hP.block hP.size ho
  obtain ⟨q1, q2, q3, _⟩ := newPadded_spec hP'.len hP'.block hP'.size ho'
  have hh := (C31_hierarchy_well_formed _ _ heps lower mode o p3 _ H hH (netTut_pos hN hH)).2.1
  have hh' := (C31_hierarchy_well_formed _ _ heps lower mode o' q3 _ H' hH' (netTut_pos hN hH')).2.1
  have hfl : ∀ {o : CloudObj (Fin (k + 2) → ℝ)} {H : Hier k ℝ} {feats : List (List (ℕ → ℝ))} {rows : List (ℕ → ℝ)},
      H.clouds.head? = some o → Except.ok rows = N.logits E H feats → ∃ f, (o.flattenFeatures feats).1 = .ok f := by
    intro o H feats rows hh h
    unfold NetTut.logits at h
    split at h
    swap
    · cases h
    rename_i o1 os hcl
    rw [hcl, List.head?_cons, Option.some.injEq] at hh
    subst hh
    split at h
    · cases h
    · rename_i f0 e0
      exact ⟨f0, e0⟩
  obtain ⟨f, ef⟩ := hfl hh h
  obtain ⟨f', ef'⟩ := hfl hh' h'
  have hel : ∀ b, ∃ s : SameElem o.c o'.c b (σ b), s.Agree f f' := by
    intro b
    have hperm := hM.all b
    rw [← padded_features hP ho hf hfV ef, ← padded_features hP' ho' hf' hfV' ef'] at hperm
    exact SameElem.ofPermFeatures hperm
  choose s hs using hel
  have hlen : points'.length = points.length := by
    have := hM.1
    simp only [List.length_zipWith] at this
    omega
  have hσ : ∀ b, σ b < points.length ↔ b < points.length := by
    have := hM.2.1
    simp only [List.length_zipWith, hf, min_self] at this
    exact this
  have hB : o.c.B = points.length := by rw [p2, p1]
  have hB' : o'.c.B = points.length := by rw [q2, q1, hlen]
  have key := C165_tutorial_from_levels E heps N hN hσ
    (fun p hp => ⟨(hier_clouds heps p3 hH (netTut_pos hN hH) p hp).1, ((hier_clouds heps p3 hH (netTut_pos hN hH) p hp).2).trans hB⟩)
    (fun p hp => ⟨(hier_clouds heps q3 hH' (netTut_pos hN hH') p hp).1, ((hier_clouds heps q3 hH' (netTut_pos hN hH') p hp).2).trans hB'⟩)
    hh hh' ef ef' (SameBatch.ofElems s) (fun q => hs (o.c.batch q) ⟨q, rfl⟩)
    (sameLevels_of fun b => (C94_hierarchy heps hm p3 q3 (s b) _ H H' hH hH' (netTut_pos hN hH)).2) h.symm h'.symm
  exact ⟨key.1, key.2, fun C e labels labels' hl => (C165_loss C e hσ key.1 key.2 hl).1⟩

end

/-! ### Gradients -/

section
variable {ρ ε : ℝ} {D : ℕ}

/-- Differences of the gradients of the variables. -/
def TutLevelGrads.sub (g h : TutLevelGrads) : TutLevelGrads := ⟨g.n, g.conv.sub h.conv, g.bn.sub h.bn⟩
/-- Differences of the gradients of the variables. -/
def TutGrads.sub (g h : TutGrads) : TutGrads :=
  ⟨List.zipWith TutLevelGrads.sub g.levels h.levels, g.last.sub h.last, g.n, g.head.sub h.head⟩

theorem TutLevelsShape.sub : ∀ {ls : List (LevelTut D)} {gs hs : List TutLevelGrads}, TutLevelsShape ls gs → TutLevelsShape ls hs →
    TutLevelsShape ls (List.zipWith TutLevelGrads.sub gs hs)
  | [], _, _, .nil, .nil => .nil
  | _ :: _, _, _, .cons h1 h2, .cons h3 h4 => .cons (ConvShape.sub h1 h3) (TutLevelsShape.sub h2 h4)

theorem tutLevels_apart (hε : 0 < ε) (last lastA : NetConv D) (cl : ℕ) (gl hl : ConvGrads) (h1 : ConvShape last gl) (h2 : ConvShape last hl) :
    ∀ (ls As : List (LevelTut D)) (cs : List ℕ) (gs hs : List TutLevelGrads) (ci : ℕ), tutLevelsRmsFit last lastA cl ci ls As cs →
      TutLevelsShape ls gs → TutLevelsShape ls hs →
      Apart (tutLevelsPairing 0 (last.line ρ ε lastA (gl.sub hl)) cl ci
          (tutLevelsLine ρ ε ls As (List.zipWith TutLevelGrads.sub gs hs) cs) gs gl)
        (tutLevelsPairing 0 (last.line ρ ε lastA (gl.sub hl)) cl ci
          (tutLevelsLine ρ ε ls As (List.zipWith TutLevelGrads.sub gs hs) cs) hs hl)
        (tutLevelsNums last cl ci ls cs gs gl) (tutLevelsNums last cl ci ls cs hs hl)
  | [], [], [], _, _, ci, hf, .nil, .nil => last.apart hε _ _ _ hf h1 h2
  | l :: ls, A :: As, c :: cs, _, _, ci, ⟨⟨f1, f2, f3⟩, hf⟩, .cons (b := g) (l₂ := gs) hg hgs, .cons (b := h) (l₂ := hs) hh hhs =>
    ((l.conv.apart hε A.conv g.conv h.conv f2 hg hh).add (l.bn.apart hε A.bn g.bn h.bn _)).add
      (tutLevels_apart hε last lastA cl gl hl h1 h2 ls As cs gs hs c hf hgs hhs)

theorem tutLevelsRms_all (η : ℝ) (P : LevelTut D → Prop) (hP : ∀ l A g, P l → P (l.rms ρ ε η A g)) :
    ∀ (ls As : List (LevelTut D)) (gs : List TutLevelGrads), (∀ l ∈ ls, P l) → ∀ l ∈ tutLevelsRms ρ ε η ls As gs, P l
  | [], _, _, h => by unfold tutLevelsRms; exact h
  | _ :: _, [], _, h => by unfold tutLevelsRms; exact h
  | _ :: _, _ :: _, [], h => by unfold tutLevelsRms; exact h
  | l :: ls, A :: As, g :: gs, h => by
    simp only [tutLevelsRms, List.mem_cons, forall_eq_or_imp] at h ⊢
    exact ⟨hP _ _ _ h.1, tutLevelsRms_all η P hP ls As gs h.2⟩

end

section
variable {k : ℕ} {σ : Equiv.Perm ℕ}

/-- One training step without the network: the clouds of the hierarchy, features and labels. -/
structure TutStep (k : ℕ) where
  clouds : List (CloudObj (Fin (k + 2) → ℝ))
  feats : List (List (ℕ → ℝ))
  labels : List ℕ

/-- What is assumed about a training step: clouds that the kernels handle, valid labels. -/
structure TutStep.Ok (S : TutStep k) (Ws C : ℕ) : Prop where
  clouds : ∀ p ∈ S.clouds, GpuCloud Ws p.c
  labels : ∀ l ∈ S.labels, l < C

/-- Training steps at which all networks of the same sizes have the same loss have the same gradients. -/
theorem tut_grads_eq (hk : k ≤ 1) (E : NetEnv) (a : NonLin) (hE : E.act = a.fwd) (hT : E.training = true) (hL : E.lrelu = kerasLrelu)
    {Ws : ℕ} (hW : 0 < Ws) (N : NetTut (k + 2)) (ci : ℕ)
    (cs : List ℕ) (cl c1 C : ℕ) (hN : N.RmsFits ci N cs cl c1) (e : ℝ) (he : 0 < e) (he' : e < 1 / 2)
    (S S' : TutStep k) (hS : S.Ok Ws C) (hS' : S'.Ok Ws C) (loss loss' : ℝ) (g g' : TutGrads)
    (ht : N.GpuTrainStep E a Ws cs cl c1 C e S.clouds S.feats S.labels loss g)
    (ht' : N.GpuTrainStep E a Ws cs cl c1 C e S'.clouds S'.feats S'.labels loss' g')
    (hs : N.Off E a Ws cs cl c1 C e S.clouds S.feats) (hs' : N.Off E a Ws cs cl c1 C e S'.clouds S'.feats)
    (same : ∀ (η : ℝ) (d : TutGrads) l l', (N.rms 0 1 η N d).GpuLoss E Ws C e S.clouds S.feats S.labels l →
      (N.rms 0 1 η N d).GpuLoss E Ws C e S'.clouds S'.feats S'.labels l' → l = l') :
    loss = loss' ∧ N.nums ci cs cl c1 C g = N.nums ci cs cl c1 C g' := by
  have h0 : (0 : ℝ) ≤ 0 := le_rfl
  have h1 : (0 : ℝ) ≤ 1 := zero_le_one
  have hε : (0 : ℝ) < 1 := one_pos
  have hloss := ht.loss
  have hloss' := ht'.loss
  obtain ⟨g1, g2⟩ := ht.shape
  obtain ⟨g1', g2'⟩ := ht'.shape
  have heq : loss = loss' := same 0 g _ _ (by rw [NetTut.rms_zero]; exact hloss) (by rw [NetTut.rms_zero]; exact hloss')
  refine ⟨heq, ?_⟩
  have hsh : TutLevelsShape N.levels (g.sub g').levels := g1.sub g1'
  have hsl : ConvShape N.last (g.sub g').last := g2.sub g2'
  obtain ⟨_, i2, i3, _⟩ := tutLevelsLine_spec (ρ := 0) (ε := 1) h0 h1 hε N.last N.last cl (g.sub g').last hsl _ _ _ _ ci hN.levels hsh
  have hat : ∀ η, (N.line 0 1 N (g.sub g') cs cl c1 C).at η = N.rms 0 1 η N (g.sub g') :=
    N.line_at h0 h1 hε N (g.sub g') cs cl c1 C hN hsh hsl
  have hrun : ∀ (S : TutStep k) (hS : S.Ok Ws C) loss, N.GpuLoss E Ws C e S.clouds S.feats S.labels loss → ∀ η, ∃ l,
      (N.rms 0 1 η N (g.sub g')).GpuLoss E Ws C e S.clouds S.feats S.labels l := by
    intro S hS loss hloss η
    obtain ⟨r1, _, r2⟩ := tutLevelsRms_like (ρ := 0) (ε := 1) η cl N.last N.last _ _ _ _ ci hN.levels hsh
    exact N.like_runs E hW (N.rms 0 1 η N (g.sub g')) rfl hN.radius (N.last.rms_ready η _ _ r2) r1 C e S.clouds hS.clouds S.feats
      S.labels hloss
  have hcs : (N.line 0 1 N (g.sub g') cs cl c1 C).levels.map (fun l => l.co) = cs := i2
  obtain ⟨f, f0, hf⟩ := choose_runs (hrun S hS loss hloss) loss
  have hff : ∀ η, η ≠ 0 → (N.rms 0 1 η N (g.sub g')).GpuLoss E Ws C e S'.clouds S'.feats S'.labels (f η) := by
    intro η hη
    obtain ⟨l, hl⟩ := hrun S' hS' loss' hloss' η
    rw [same η _ _ _ (hf η hη) hl]
    exact hl
  have d1 : HasDerivAt f ((N.line 0 1 N (g.sub g') cs cl c1 C).pairing 0 ci g) 0 := by
    refine C168_tutorial_partial hk E a hE hT hL hW 0 (N.line 0 1 N (g.sub g') cs cl c1 C) ci
      ⟨i3, hN.radius, N.head.rms_moves _ _ _ hN.head⟩ e he he' S.clouds hS.clouds S.feats S.labels hS.labels
      (N.line_smooth h0 h1 hε E a Ws N (g.sub g') cs cl c1 C hN hsh hsl e S.clouds S.feats hs) f
      (fun η hη => by rw [hat]; exact hf η hη) g ?_
    rw [hat, NetTut.rms_zero, f0, hcs]
    exact ht
  have d2 : HasDerivAt f ((N.line 0 1 N (g.sub g') cs cl c1 C).pairing 0 ci g') 0 := by
    refine C168_tutorial_partial hk E a hE hT hL hW 0 (N.line 0 1 N (g.sub g') cs cl c1 C) ci
      ⟨i3, hN.radius, N.head.rms_moves _ _ _ hN.head⟩ e he he' S'.clouds hS'.clouds S'.feats S'.labels hS'.labels
      (N.line_smooth h0 h1 hε E a Ws N (g.sub g') cs cl c1 C hN hsh hsl e S'.clouds S'.feats hs') f
      (fun η hη => by rw [hat]; exact hff η hη) g' ?_
    rw [hat, NetTut.rms_zero, f0, hcs, heq]
    exact ht'
  exact ((tutLevels_apart hε N.last N.last cl g.last g'.last g2 g2' _ _ _ _ _ ci hN.levels g1 g1').add
    (N.head.apart hε N.head g.head g'.head cl c1 C)).2 (d1.unique (𝕜 := ℝ) d2)

theorem NetConv.rms_reads {D : ℕ} {ρ ε : ℝ} (η : ℝ) (L A : NetConv D) (g : ConvGrads) : (L.rms ρ ε η A g).reads = L.reads := by
  unfold NetConv.rms
  split <;> rfl

theorem tutLevels_fits {D : ℕ} {N M : NetTut D} (hr : M.last.reads = N.last.reads) (hw : ∀ w, N.last.Writes w → M.last.Writes w)
    (hh : M.head.dense1.cin = N.head.dense1.cin) : ∀ ls : List (LevelTut D), (M.next ls).reads = (N.next ls).reads ∧ (N.FitsFrom ls → M.FitsFrom ls)
  | [] => ⟨hr, fun h => by unfold NetTut.FitsFrom at h ⊢; rw [hh]; exact hw _ h⟩
  | l :: ls => by
    refine ⟨rfl, fun h => ?_⟩
    obtain ⟨i1, i2⟩ := tutLevels_fits hr hw hh ls
    exact ⟨by rw [i1]; exact h.1, i2 h.2⟩

theorem tutLevelsRms_fits {D : ℕ} {ρ ε : ℝ} (η : ℝ) {N M : NetTut D} (hr : M.last.reads = N.last.reads)
    (hw : ∀ w, N.last.Writes w → M.last.Writes w) (hh : M.head.dense1.cin = N.head.dense1.cin) :
    ∀ (ls As : List (LevelTut D)) (gs : List TutLevelGrads), (M.next (tutLevelsRms ρ ε η ls As gs)).reads = (N.next ls).reads ∧
      (N.FitsFrom ls → M.FitsFrom (tutLevelsRms ρ ε η ls As gs))
  | [], _, _ => by unfold tutLevelsRms; exact tutLevels_fits hr hw hh _
  | _ :: _, [], _ => by unfold tutLevelsRms; exact tutLevels_fits hr hw hh _
  | _ :: _, _ :: _, [] => by unfold tutLevelsRms; exact tutLevels_fits hr hw hh _
  | l :: ls, A :: As, g :: gs => by
    obtain ⟨i1, i2⟩ := tutLevelsRms_fits η hr hw hh ls As gs
    unfold tutLevelsRms
    refine ⟨l.conv.rms_reads η _ _, fun h => ⟨?_, i2 h.2⟩⟩
    rw [i1]
    exact l.conv.rms_writes η _ _ _ h.1

theorem NetTut.rms_gpuOk {ρ ε : ℝ} (η : ℝ) (E : NetEnv) (N A : NetTut (k + 2)) (g : TutGrads) (h : N.GpuOk E) : (N.rms ρ ε η A g).GpuOk E where
  ok := ⟨⟨N.last.rms_ok η _ _ h.ok.last.1, h.ok.last.2⟩, tutLevelsRms_all η (fun l => l.conv.Ok ∧ 0 < l.sampleRadius ∧ 0 < l.convRadius)
    (fun l A g h => ⟨l.conv.rms_ok η _ _ h.1, h.2⟩) _ _ _ h.ok.levels⟩
  last := N.last.rms_gpuOk η E _ _ h.last
  levels := tutLevelsRms_all η (fun l => l.conv.GpuOk E) (fun l A g h => l.conv.rms_gpuOk η E _ _ h) _ _ _ h.levels
  fits := (tutLevelsRms_fits (M := N.rms ρ ε η A g) η (N.last.rms_reads η _ _) (fun w h => N.last.rms_writes η _ _ w h) rfl _ _ _).2 h.fits

/-- Specification: the second step trains with the same shapes, shape `b` as shape `σ b` and moved by the vector `t b`, on
every level of the hierarchy, with its label. -/
structure TutStep.Reordered (σ : Equiv.Perm ℕ) (t : ℕ → Fin (k + 2) → ℝ) (S S' : TutStep k) : Prop where
  perm : ∀ b, σ b < S.labels.length ↔ b < S.labels.length
  levels : SameLevels σ (S.clouds.map (·.moveEach t)) S'.clouds
  batch : ∀ p ∈ S.clouds, p.c.B = S.labels.length
  batch' : ∀ p ∈ S'.clouds, p.c.B = S.labels.length
  length : S'.labels.length = S.labels.length
  labels : ∀ b < S.labels.length, S'.labels[σ b]? = S.labels[b]?

/-- **C166, network of the tutorial**: two training steps with the same shapes in another order, moved independently, with
the same features and labels, on hierarchies with the same points: the same loss and the same gradient for every variable,
whatever the schedules on the GPU. -/
theorem C166_tutorial_partial (hk : k ≤ 1) (E : NetEnv) (a : NonLin) (hE : E.act = a.fwd) (hT : E.training = true)
    (hL : E.lrelu = kerasLrelu) {Ws : ℕ} (hW : 0 < Ws) (N : NetTut (k + 2)) (ci : ℕ)
    (cs : List ℕ) (cl c1 C : ℕ) (hN : N.RmsFits ci N cs cl c1) (e : ℝ) (he : 0 < e) (he' : e < 1 / 2)
    (S S' : TutStep k) (hdev : E.dev = .gpu) (heps : 0 < E.eps) (hok : N.GpuOk E) (hS : S.Ok Ws C) (hS' : S'.Ok Ws C)
    (t : ℕ → Fin (k + 2) → ℝ) (hR : S.Reordered σ t S') {o o' : CloudObj (Fin (k + 2) → ℝ)}
    (ho : S.clouds.head? = some o) (ho' : S'.clouds.head? = some o') {f : Fin o.c.n → ℕ → ℝ} {f' : Fin o'.c.n → ℕ → ℝ}
    (hf : (o.flattenFeatures S.feats).1 = .ok f) (hf' : (o'.flattenFeatures S'.feats).1 = .ok f')
    (s : SameBatch (o.c.moveEach t) o'.c σ) (hsf : ∀ q, f' (s.e q) = f q) (loss loss' : ℝ) (g g' : TutGrads)
    (ht : N.GpuTrainStep E a Ws cs cl c1 C e S.clouds S.feats S.labels loss g)
    (ht' : N.GpuTrainStep E a Ws cs cl c1 C e S'.clouds S'.feats S'.labels loss' g')
    (hs : N.Off E a Ws cs cl c1 C e S.clouds S.feats) (hs' : N.Off E a Ws cs cl c1 C e S'.clouds S'.feats) :
    loss = loss' ∧ N.nums ci cs cl c1 C g = N.nums ci cs cl c1 C g' := by
  refine tut_grads_eq hk E a hE hT hL hW N ci cs cl c1 C hN e he he' S S' hS hS' loss loss' g g' ht ht' hs hs' fun η d l l' h h' => ?_
  obtain ⟨rows, r1, r2, r3⟩ := h
  obtain ⟨rows', r1', r2', r3'⟩ := h'
  have ok := N.rms_gpuOk (ρ := 0) (ε := 1) η E N d hok
  have q1 := C140_logits_partial hk E hdev heps hW _ ok ⟨S.clouds, [], [], none⟩ S.labels.length
    (fun p hp => ⟨hS.clouds p hp, hR.batch p hp⟩) S.feats _ r1
  have q2 := C140_logits_partial hk E hdev heps hW _ ok ⟨S'.clouds, [], [], none⟩ S.labels.length
    (fun p hp => ⟨hS'.clouds p hp, hR.batch' p hp⟩) S'.feats _ r1'
  rw [← netTut_logits_move E _ _ _ t] at q1
  have e1 : ((⟨S.clouds, [], [], none⟩ : Hier k ℝ).moveEach t).clouds = S.clouds.map (·.moveEach t) := rfl
  have key := C165_tutorial_from_levels (B := S.labels.length) E heps _ ok.ok hR.perm
    (H := (⟨S.clouds, [], [], none⟩ : Hier k ℝ).moveEach t) (H' := ⟨S'.clouds, [], [], none⟩)
    (fun p hp => by
      obtain ⟨o, ho, rfl⟩ := List.mem_map.mp hp
      exact ⟨(hS.clouds o ho).valid, hR.batch o ho⟩)
    (fun p hp => ⟨(hS'.clouds p hp).valid, hR.batch' p hp⟩) (o := o.moveEach t) (o' := o')
    (by rw [e1, List.head?_map, ho]; rfl) ho'
    (f := f) (f' := f') (by rw [flattenFeatures_move]; exact hf) hf' s hsf hR.levels q1.symm q2.symm
  rw [r3, r3', batchLoss_moved C e hR.perm key.1 key.2 rfl hR.length hR.labels]

end

/-! ### The hypotheses can be met -/

theorem exTut_off_of (o3 o2 : CloudObj (Fin 2 → ℝ)) (hn : o2.c.n ≤ 99) (hB : o2.c.B ≤ 99) (feats : List (List (ℕ → ℝ))) :
    (exTutCurve.at 0).Off (k := 0) exTrainEnv .elu 1 [1] 1 1 2 (1 / 10 ^ 7) [o3, o2, o2] feats := by
  intro o os e f0 hf
  obtain ⟨rfl, rfl⟩ := List.cons.inj e
  refine ⟨⟨exConvCurve_smooth _ _, fun r hr => ⟨fun i ch _ => ?_, exConvCurve_smooth _ _⟩⟩, fun oE fE h => ?_⟩
  · exact bn_large_ne (exBn 0) hn r ch rfl rfl one_pos i
  · obtain rfl : oE = o2 := gpuNetTutLoop_last _ _ _ _ _ _ _ _ _ h
    refine ⟨fun i ch _ => ?_, fun i ch _ => ?_, fun b j hj => ?_⟩
    · exact bn_large_ne (exBn 0) hB _ ch rfl rfl one_pos i
    · exact bn_large_ne (exBn 0) hB _ ch rfl rfl one_pos i
    · have hsm : ∀ x : ℕ → ℝ, (∀ j < 2, x j = 0) → softmaxRow 2 x j = 1 / 2 := fun x hx =>
        softmaxRow_half x (fun i hi => by rw [hx i hi, hx 0 (by omega)]) hj
      change softmaxRow 2 _ j ≠ _ ∧ softmaxRow 2 _ j ≠ _
      rw [hsm]
      · constructor <;> norm_num
      · intro j hj
        simp only [NetHead.runTut, Lin.apply, conv1x1, exTutCurve, TutCurve.at, Finset.sum_range_one]
        split <;> simp

theorem exTut_step {o3 o2 : CloudObj (Fin 2 → ℝ)} (h3 : GpuCloud 1 o3.c) (h2 : GpuCloud 1 o2.c) {feats : List (List (ℕ → ℝ))}
    {f0 : Fin o3.c.n → ℕ → ℝ} (e0 : (o3.flattenFeatures feats).1 = .ok f0) {labels : List ℕ} (hl : labels.length = o2.c.B) :
    ∃ loss g, (exTutCurve.at 0).GpuTrainStep (k := 0) exTrainEnv .elu 1 [1] 1 1 2 (1 / 10 ^ 7) [o3, o2, o2] feats labels loss g := by
  have hc : ∀ p ∈ [o3, o2, o2], GpuCloud 1 p.c := by
    intro p hp
    simp only [List.mem_cons, List.not_mem_nil, or_false] at hp
    rcases hp with rfl | rfl | rfl
    exacts [h3, h2, h2]
  obtain ⟨loss, hloss⟩ : ∃ loss, (exTutCurve.at 0).GpuLoss (k := 0) exTrainEnv 1 2 (1 / 10 ^ 7) [o3, o2, o2] feats labels loss := by
    obtain ⟨r, hr⟩ := exMc_runs 0 h3 h2 f0
    obtain ⟨r', hr'⟩ := exMc_runs 0 h2 h2 (exTrainEnv.bnAct (exBn 0) r)
    refine ⟨_, List.ofFn ((exTutCurve.at 0).head.runTut exTrainEnv (pooled40 o2 r')), ?_, ?_, rfl⟩
    · unfold NetTut.GpuLogits
      dsimp only
      rw [e0]
      exact ⟨.ok ⟨o2, r'⟩, ⟨.ok r, hr, .ok r', hr', rfl⟩, rfl⟩
    · rw [List.length_ofFn, hl]
  obtain ⟨g, hg⟩ := C168_runs (k := 0) exTrainEnv .elu one_pos (exTutCurve.at 0) one_pos
    (by simp [exTutCurve, TutCurve.at, TutLevelCurve.at]) [1] rfl 1 1 2 _ _ hc _ _ _ hloss
  exact ⟨loss, g, hg⟩

theorem exTutAt_gpuOk : (exTutCurve.at 0).GpuOk (k := 0) exTrainEnv := by
  have hc : (exConvCurve.at 0).GpuOk exTrainEnv := ⟨one_ne_zero, one_dvd _, by decide, by decide, rfl⟩
  refine ⟨⟨⟨trivial, one_pos, one_pos⟩, ?_⟩, hc, ?_, le_rfl, le_rfl⟩ <;>
    simp only [TutCurve.at, exTutCurve, List.map_cons, List.map_nil, List.mem_singleton, forall_eq]
  · exact ⟨trivial, one_pos, one_pos⟩
  · exact hc

/-- One step with two shapes and one with the shapes exchanged and one of them moved. -/
noncomputable def exTutStep : TutStep 0 := ⟨[exO3, exO2, exO2], exFeats, [0, 1]⟩
/-- The other step. -/
noncomputable def exTutStep' : TutStep 0 := ⟨[exP3, exP2, exP2], exFeats', [1, 0]⟩

example : ∃ loss g g', (exTutCurve.at 0).GpuTrainStep (k := 0) exTrainEnv .elu 1 [1] 1 1 2 (1 / 10 ^ 7)
      [exO3, exO2, exO2] exFeats [0, 1] loss g ∧
    (exTutCurve.at 0).GpuTrainStep (k := 0) exTrainEnv .elu 1 [1] 1 1 2 (1 / 10 ^ 7) [exP3, exP2, exP2] exFeats' [1, 0] loss g' ∧
    (exTutCurve.at 0).nums 1 [1] 1 1 2 g = (exTutCurve.at 0).nums 1 [1] 1 1 2 g' := by
  have h3 := exClouds exO3 (by simp)
  have h2 := exClouds exO2 (by simp)
  obtain ⟨h3', h2'⟩ := exP_clouds
  obtain ⟨loss, g, ht⟩ := exTut_step h3 h2 exFlat (labels := [0, 1]) rfl
  obtain ⟨loss', g', ht'⟩ := exTut_step h3' h2' exFlat' (labels := [1, 0]) rfl
  have hR : exTutStep.Reordered (Equiv.swap 0 1) exShift exTutStep' :=
    ⟨exReordered.perm, exReordered.levels, exReordered.batch, exReordered.batch', exReordered.length, exReordered.labels⟩
  obtain ⟨rfl, q⟩ := C166_tutorial_partial (k := 0) (by omega) exTrainEnv .elu rfl rfl rfl one_pos (exTutCurve.at 0) 1 [1] 1 1 2
    exTut_fits (1 / 10 ^ 7) (by norm_num) (by norm_num) exTutStep exTutStep' rfl (by norm_num [exTrainEnv]) exTutAt_gpuOk
    ⟨exClouds, by simp [exTutStep]⟩ ⟨by simp [exTutStep', h3', h2'], by simp [exTutStep']⟩ exShift hR (o := exO3) (o' := exP3) rfl rfl
    exFlat exFlat' exSame3 exRows loss loss' g g' ht ht'
    (exTut_off_of _ _ (by norm_num [exO2]) (by norm_num [exO2]) _) (exTut_off_of _ _ (by norm_num [exP2]) (by norm_num [exP2]) _)
  exact ⟨loss, g, g', ht, ht', q⟩

/-- The hypotheses of `C165_tutorial` are met, in training: two shapes exchanged, one of them with its points in the other
order. -/
example : ∃ rows rows', exTut.Call exOrderEnv id "average" 2 [[![0, 0], ![3, 0]], [![2, 0], ![2, 5]]]
      [[fun _ => 1, fun _ => 0], [fun _ => 2, fun _ => 3]] (.ok rows) ∧
    exTut.Call exOrderEnv id "average" 2 [[![2, 5], ![2, 0]], [![0, 0], ![3, 0]]]
      [[fun _ => 3, fun _ => 2], [fun _ => 1, fun _ => 0]] (.ok rows') ∧
    rows.length = 2 ∧ rows'[0]? = rows[1]? ∧ rows'[1]? = rows[0]? := by
  have he : 0 < exOrderEnv.eps := by norm_num [exOrderEnv, exEnv]
  have hV : ∀ s ∈ ([[![0, 0], ![3, 0]], [![2, 0], ![2, 5]]] : List (List (Fin 2 → ℝ))), s.length = 2 := by simp
  have hV' : ∀ s ∈ ([[![2, 5], ![2, 0]], [![0, 0], ![3, 0]]] : List (List (Fin 2 → ℝ))), s.length = 2 := by simp
  obtain ⟨rows, h⟩ := (C129_returns exOrderEnv rfl he exTut exTut_ok id "average" (by simp) hV (by simp) (by simp)
    (feats := [[fun _ => 1, fun _ => 0], [fun _ => 2, fun _ => 3]]) rfl (by simp)).1
  obtain ⟨rows', h'⟩ := (C129_returns exOrderEnv rfl he exTut exTut_ok id "average" (by simp) hV' (by simp) (by simp)
    (feats := [[fun _ => 3, fun _ => 2], [fun _ => 1, fun _ => 0]]) rfl (by simp)).1
  obtain ⟨k1, k2, _⟩ := C165_tutorial (σ := Equiv.swap 0 1) exOrderEnv he exTut exTut_ok id "average" (by simp) hV hV' rfl (by simp) rfl (by simp)
    ⟨rfl, by
      intro b
      simp only [List.zipWith_cons_cons, List.zipWith_nil_right, List.length_cons, List.length_nil]
      rcases b with _ | _ | b
      · simp
      · simp
      · rw [Equiv.swap_apply_of_ne_of_ne (by omega) (by omega)], by
      intro b hb
      simp only [List.zipWith_cons_cons, List.zipWith_nil_right, List.length_cons, List.length_nil] at hb
      rcases b with _ | _ | b
      · simp
      · simp only [zero_add, Equiv.swap_apply_right]
        exact List.Perm.swap _ _ _
      · omega⟩ h h'
  refine ⟨rows, rows', h, h', k1, ?_, ?_⟩
  · have := k2.2 1 (by rw [k1]; decide)
    rwa [Equiv.swap_apply_right] at this
  · have := k2.2 0 (by rw [k1]; decide)
    rwa [Equiv.swap_apply_left] at this

end PC
