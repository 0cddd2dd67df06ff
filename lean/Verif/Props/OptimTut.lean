import Verif.OptimTut
import Verif.Props.OptimNet
import Verif.Props.TutGrad

/-!
# Updates of the network of the tutorial lower the loss (C162)
-/

set_option linter.unusedVariables false
set_option linter.unusedSectionVars false

namespace PC

/-- The first update of `Adam` is that of `RMSprop` with `rho = 0` and another epsilon, whatever the accumulator. -/
theorem C162_adam_first {β₁ β₂ ε : ℝ} (h1 : 0 ≤ β₁) (h1' : β₁ < 1) (h2 : 0 ≤ β₂) (h2' : β₂ < 1) (hε : 0 < ε) (lr g : ℕ → ℝ) (x ms : ℝ) :
    (adamRun β₁ β₂ ε lr g x 1).1 = rmsVar 0 (ε / √(1 - β₂)) (lr 0) ms (g 0) x := by
  have e : (adamRun β₁ β₂ ε lr g x 1).1 = (adamRun β₁ β₂ ε lr (fun _ => g 0) x 1).1 := rfl
  rw [e, C162_adamConst h1 h1' h2 h2' hε lr (g 0) x 0]
  unfold rmsVar rmsDir rmsAcc
  rw [zero_add, pow_one, zero_mul, zero_add, sub_zero, one_mul, Real.sqrt_sq_eq_abs]
  rfl

section
variable {ρ ε : ℝ} {D : ℕ}

/-- A level as a function of the learning rate; `c` is its number of channels. -/
noncomputable def LevelTut.line (ρ ε : ℝ) (l A : LevelTut D) (g : TutLevelGrads) (c : ℕ) : TutLevelCurve D where
  conv := l.conv.line ρ ε A.conv g.conv
  bn := fun η => l.bn.rms ρ ε η A.bn g.bn
  bn' := l.bn.rmsVel ρ ε A.bn g.bn
  sampleRadius := l.sampleRadius
  convRadius := l.convRadius
  co := c

/-- All levels. -/
noncomputable def tutLevelsLine (ρ ε : ℝ) : List (LevelTut D) → List (LevelTut D) → List TutLevelGrads → List ℕ → List (TutLevelCurve D)
  | l :: ls, A :: As, g :: gs, c :: cs => l.line ρ ε A g c :: tutLevelsLine ρ ε ls As gs cs
  | _, _, _, _ => []

/-- The network as a function of the learning rate of one update. -/
noncomputable def NetTut.line (ρ ε : ℝ) (N A : NetTut D) (g : TutGrads) (cs : List ℕ) (cl c1 C : ℕ) : TutCurve D where
  levels := tutLevelsLine ρ ε N.levels A.levels g.levels cs
  last := N.last.line ρ ε A.last g.last
  lastSampleRadius := N.lastSampleRadius
  lastConvRadius := N.lastConvRadius
  head := fun η => N.head.rms ρ ε η A.head g.head
  head' := N.head.rmsVel ρ ε A.head g.head
  cl := cl
  c1 := c1
  C := C

/-- Sizes of the levels and of the last convolution and of their accumulators, starting with `ci` channels. -/
def tutLevelsRmsFit (last lastA : NetConv D) (cl : ℕ) : ℕ → List (LevelTut D) → List (LevelTut D) → List ℕ → Prop
  | ci, [], [], [] => last.RmsFits ci cl lastA
  | ci, l :: ls, A :: As, c :: cs => (0 < l.convRadius ∧ l.conv.RmsFits ci c A.conv ∧ 0 < l.bn.eps) ∧
      tutLevelsRmsFit last lastA cl c ls As cs
  | _, _, _, _ => False

/-- Sizes of the network and of its accumulators: `ci` features per point, `cs` channels of the convolutions, `cl` after the
last one, `c1` between the dense layers. -/
structure NetTut.RmsFits (ci : ℕ) (N A : NetTut D) (cs : List ℕ) (cl c1 : ℕ) : Prop where
  levels : tutLevelsRmsFit N.last A.last cl ci N.levels A.levels cs
  radius : 0 < N.lastConvRadius
  head : N.head.RmsFits cl c1

/-- Gradients of the convolutions and normalisations. -/
def tutLevelsNums (last : NetConv D) (cl : ℕ) : ℕ → List (LevelTut D) → List ℕ → List TutLevelGrads → ConvGrads → List ℝ
  | ci, l :: ls, c :: cs, g :: gs, gl => l.conv.nums ci c g.conv ++ bnNums c g.bn ++ tutLevelsNums last cl c ls cs gs gl
  | ci, _, _, _, gl => last.nums ci cl gl

/-- All gradients of the network. -/
def NetTut.nums (ci : ℕ) (N : NetTut D) (cs : List ℕ) (cl c1 C : ℕ) (g : TutGrads) : List ℝ :=
  tutLevelsNums N.last cl ci N.levels cs g.levels g.last ++ headNums cl c1 C g.head

/-- The gradients of the levels are those of levels like `ls`. -/
def TutLevelsShape (ls : List (LevelTut D)) (gs : List TutLevelGrads) : Prop := List.Forall₂ (fun l g => ConvShape l.conv g.conv) ls gs

theorem tutLevelsLine_spec (h0 : 0 ≤ ρ) (h1 : ρ ≤ 1) (hε : 0 < ε) (last lastA : NetConv D) (cl : ℕ) (gl : ConvGrads) (hl : ConvShape last gl) :
    ∀ (ls As : List (LevelTut D)) (cs : List ℕ) (gs : List TutLevelGrads) (ci : ℕ), tutLevelsRmsFit last lastA cl ci ls As cs →
      TutLevelsShape ls gs →
      (∀ η, (tutLevelsLine ρ ε ls As gs cs).map (fun l => l.at η) = tutLevelsRms ρ ε η ls As gs) ∧
      (tutLevelsLine ρ ε ls As gs cs).map (fun l => l.co) = cs ∧
      tutLevelsMove 0 (last.line ρ ε lastA gl) cl ci (tutLevelsLine ρ ε ls As gs cs) ∧
      Down (tutLevelsPairing 0 (last.line ρ ε lastA gl) cl ci (tutLevelsLine ρ ε ls As gs cs) gs gl)
        (tutLevelsNums last cl ci ls cs gs gl) ∧ ∃ c, last.RmsFits c cl lastA
  | [], [], [], _, ci, hf, .nil => ⟨fun _ => rfl, rfl, last.line_moves _ _ hf hl, last.line_down h0 h1 hε _ _ hf hl, ci, hf⟩
  | l :: ls, A :: As, c :: cs, _, ci, ⟨⟨f1, f2, f3⟩, hf⟩, .cons (b := g) (l₂ := gs) hg hgs => by
    obtain ⟨i1, i2, i3, i4, i5⟩ := tutLevelsLine_spec h0 h1 hε last lastA cl gl hl ls As cs gs c hf hgs
    refine ⟨fun η => ?_, ?_, ⟨f1, l.conv.line_moves _ _ f2 hg, l.bn.rms_moves _ _ _ f3, i3⟩, ?_, i5⟩
    · simp only [tutLevelsLine, tutLevelsRms, List.map_cons, i1]
      congr 1
      simp only [TutLevelCurve.at, LevelTut.line, LevelTut.rms, l.conv.line_at η _ _ f2 hg]
    · simp only [tutLevelsLine, List.map_cons, i2]
      rfl
    · exact ((l.conv.line_down h0 h1 hε _ _ f2 hg).add (l.bn.rms_down h0 h1 hε _ _ _)).add i4

theorem NetTut.line_at (h0 : 0 ≤ ρ) (h1 : ρ ≤ 1) (hε : 0 < ε) {ci : ℕ} (N A : NetTut D) (g : TutGrads) (cs : List ℕ)
    (cl c1 C : ℕ) (hf : N.RmsFits ci A cs cl c1) (hs : TutLevelsShape N.levels g.levels) (hl : ConvShape N.last g.last) (η : ℝ) :
    (N.line ρ ε A g cs cl c1 C).at η = N.rms ρ ε η A g := by
  obtain ⟨i1, _, _, _, ci', h⟩ := tutLevelsLine_spec h0 h1 hε N.last A.last cl g.last hl _ _ _ _ ci hf.levels hs
  have hlast : (N.last.line ρ ε A.last g.last).at η = N.last.rms ρ ε η A.last g.last := N.last.line_at η _ _ h hl
  simp only [TutCurve.at, NetTut.line, NetTut.rms, i1, hlast]

theorem tutLevelsRms_zero : ∀ (ls As : List (LevelTut D)) (gs : List TutLevelGrads), tutLevelsRms ρ ε 0 ls As gs = ls
  | [], _, _ => by unfold tutLevelsRms; rfl
  | _ :: _, [], _ => by unfold tutLevelsRms; rfl
  | _ :: _, _ :: _, [] => by unfold tutLevelsRms; rfl
  | l :: ls, A :: As, g :: gs => by
    simp only [tutLevelsRms, tutLevelsRms_zero ls As gs, LevelTut.rms, NetConv.rms_zero, BNorm.rms_zero]

theorem NetTut.rms_zero (N A : NetTut D) (g : TutGrads) : N.rms ρ ε 0 A g = N := by
  simp only [NetTut.rms, tutLevelsRms_zero, NetConv.rms_zero, NetHead.rms_zero]

theorem gpuTutTrain_shape {k : ℕ} (E : NetEnv) (a : NonLin) (Ws : ℕ) (N : NetTut (k + 2)) (cl : ℕ) (ls : List (LevelTut (k + 2))) :
    ∀ (o : CloudObj (Fin (k + 2) → ℝ)) (f : Fin o.c.n → ℕ → ℝ) (os : List (CloudObj (Fin (k + 2) → ℝ))) (cs : List ℕ)
      (oE : CloudObj (Fin (k + 2) → ℝ))
      (out G : Fin oE.c.n → ℕ → ℝ) (gs : List TutLevelGrads) (gl : ConvGrads) (fG : Fin o.c.n → ℕ → ℝ),
      gpuTutTrain E a Ws N cl o f os ls cs oE out G gs gl fG → TutLevelsShape ls gs ∧ ConvShape N.last gl := by
  induction ls with
  | nil =>
    intro o f os cs n out G gs gl fG h
    match os, cs, h with
    | [o'], [], h =>
      obtain ⟨r, G', _, e, h', rfl⟩ := h
      exact ⟨.nil, h'.shape⟩
    | [], [], h => exact h.elim
    | _ :: _ :: _, [], h => exact h.elim
    | [], _ :: _, h => exact h.elim
    | [_], _ :: _, h => exact h.elim
    | _ :: _ :: _, _ :: _, h => exact h.elim
  | cons l ls ih =>
    intro o f os cs n out G gs gl fG h
    match os, cs, h with
    | o' :: os, c :: cs, h =>
      obtain ⟨r, G', gc, gs', g1, _, h2, _, h3, rfl⟩ := (gpuTutTrain_cons ..).mp h
      obtain ⟨i1, i2⟩ := ih _ _ _ _ _ _ _ _ _ _ h2
      exact ⟨.cons h3.shape i1, i2⟩
    | [], [], h => exact h.elim
    | [_], [], h => exact h.elim
    | _ :: _ :: _, [], h => exact h.elim
    | [], _ :: _, h => exact h.elim

end

section
variable {ρ ε : ℝ} {k : ℕ}

/-- Levels with the same radii. -/
def TutLevelsLike (ls ls' : List (LevelTut (k + 2))) : Prop :=
  List.Forall₂ (fun l l' => l'.convRadius = l.convRadius ∧ 0 < l.convRadius ∧ ConvReady l'.conv) ls ls'

theorem tutLoop_like (E : NetEnv) {Ws : ℕ} (hW : 0 < Ws) (N N' : NetTut (k + 2)) (hr : N'.lastConvRadius = N.lastConvRadius)
    (hr0 : 0 < N.lastConvRadius) (hl : ConvReady N'.last) :
    ∀ (ls ls' : List (LevelTut (k + 2))) (os : List (CloudObj (Fin (k + 2) → ℝ))) (o : CloudObj (Fin (k + 2) → ℝ))
      (f f' : Fin o.c.n → ℕ → ℝ) (oE : CloudObj (Fin (k + 2) → ℝ)) (out : Fin oE.c.n → ℕ → ℝ), (∀ p ∈ o :: os, GpuCloud Ws p.c) →
      TutLevelsLike ls ls' →
      gpuNetTutLoop E Ws N o f os ls (.ok ⟨oE, out⟩) → ∃ out', gpuNetTutLoop E Ws N' o f' os ls' (.ok ⟨oE, out'⟩) := by
  intro ls
  induction ls with
  | nil =>
    intro ls' os o f f' oE out hc hls h
    cases hls
    match os, hc, h with
    | [], hc, h => unfold gpuNetTutLoop at h; cases h
    | [o'], hc, h =>
      unfold gpuNetTutLoop at h
      obtain ⟨r, _, h⟩ := h
      match r, h with
      | .ok r, h =>
        obtain ⟨r', hr'⟩ := N'.last.ready_runs E hW hl (hc o (by simp)) (hc o' (by simp)) (hr ▸ hr0) f'
        have e := Except.ok.inj h
        cases e
        refine ⟨r', ?_⟩
        unfold gpuNetTutLoop
        exact ⟨.ok r', hr', rfl⟩
    | _ :: _ :: _, hc, h => unfold gpuNetTutLoop at h; cases h
  | cons l ls ih =>
    intro ls' os o f f' oE out hc hls h
    cases hls with
    | cons hl1 hls =>
    rename_i l' ls'
    match os, hc, h with
    | [], hc, h => unfold gpuNetTutLoop at h; cases h
    | o' :: os, hc, h =>
      obtain ⟨r, _, h⟩ := (gpuNetTutLoop_cons ..).mp h
      match r, h with
      | .ok r, h =>
        obtain ⟨r', hr'⟩ := l'.conv.ready_runs E hW hl1.2.2 (hc o (by simp)) (hc o' (by simp)) (hl1.1 ▸ hl1.2.1) f'
        obtain ⟨out', ho⟩ := ih ls' os o' _ (E.bnAct l'.bn r') oE out (fun p hp => hc p (List.mem_cons_of_mem _ hp)) hls h
        exact ⟨out', (gpuNetTutLoop_cons ..).mpr ⟨.ok r', hr', ho⟩⟩

theorem tutLevelsRms_like (η : ℝ) (cl : ℕ) (last lastA : NetConv (k + 2)) : ∀ (ls As : List (LevelTut (k + 2))) (cs : List ℕ)
    (gs : List TutLevelGrads) (ci : ℕ), tutLevelsRmsFit last lastA cl ci ls As cs → TutLevelsShape ls gs →
    TutLevelsLike ls (tutLevelsRms ρ ε η ls As gs) ∧ ∃ c, last.RmsFits c cl lastA
  | [], [], [], _, ci, hf, .nil => by unfold tutLevelsRms; exact ⟨.nil, ci, hf⟩
  | l :: ls, A :: As, c :: cs, _, ci, ⟨hf, hfs⟩, .cons (b := g) (l₂ := gs) hg hgs => by
    obtain ⟨i1, i2⟩ := tutLevelsRms_like η cl last lastA ls As cs gs c hfs hgs
    exact ⟨.cons ⟨rfl, hf.1, l.conv.rms_ready η _ _ hf.2.1⟩ i1, i2⟩

/-- A network with the same radii runs on the same input. -/
theorem NetTut.like_runs (E : NetEnv) {Ws : ℕ} (hW : 0 < Ws) (N N' : NetTut (k + 2)) (hr : N'.lastConvRadius = N.lastConvRadius)
    (hr0 : 0 < N.lastConvRadius) (hl : ConvReady N'.last) (hls : TutLevelsLike N.levels N'.levels) (C : ℕ) (e : ℝ)
    (clouds : List (CloudObj (Fin (k + 2) → ℝ))) (hc : ∀ p ∈ clouds, GpuCloud Ws p.c) (feats : List (List (ℕ → ℝ))) (labels : List ℕ)
    {loss : ℝ} (h : N.GpuLoss E Ws C e clouds feats labels loss) : ∃ l, N'.GpuLoss E Ws C e clouds feats labels l := by
  obtain ⟨logits, q1, q2, q3⟩ := h
  match clouds, hc, q1 with
  | [], hc, q1 => cases q1
  | o :: os, hc, q1 =>
    unfold NetTut.GpuLogits at q1
    dsimp only at q1
    cases hf0 : (o.flattenFeatures feats).1 with
    | error er => rw [hf0] at q1; cases q1
    | ok f0 =>
      rw [hf0] at q1
      obtain ⟨r, q4, q5⟩ := q1
      match r, q4, q5 with
      | .ok ⟨oE, out⟩, q4, q5 =>
        obtain ⟨out', ho⟩ := tutLoop_like E hW N N' hr hr0 hl _ _ _ _ _ f0 _ _ hc hls q4
        refine ⟨_, List.ofFn (N'.head.runTut E (pooled40 oE out')), ?_, ?_, rfl⟩
        · unfold NetTut.GpuLogits
          dsimp only
          rw [hf0]
          exact ⟨_, ho, rfl⟩
        · rw [q2, Except.ok.inj q5, List.length_ofFn, List.length_ofFn]

theorem NetTut.GpuTrainStep.loss {E : NetEnv} {a : NonLin} {Ws : ℕ} {N : NetTut (k + 2)} {cs : List ℕ} {cl c1 C : ℕ} {e : ℝ}
    {clouds : List (CloudObj (Fin (k + 2) → ℝ))} {feats : List (List (ℕ → ℝ))} {labels : List ℕ}
    {loss : ℝ} {g : TutGrads} (ht : N.GpuTrainStep E a Ws cs cl c1 C e clouds feats labels loss g) :
    N.GpuLoss E Ws C e clouds feats labels loss := by
  unfold NetTut.GpuTrainStep at ht
  match clouds, ht with
  | o :: os, ht =>
    dsimp only at ht
    cases hf0 : (o.flattenFeatures feats).1 with
    | error er => rw [hf0] at ht; exact ht.elim
    | ok f0 =>
      rw [hf0] at ht
      obtain ⟨oE, out, lab, gs, gl, fG, hg, h1, h2, _, ht', rfl⟩ := ht
      refine ⟨List.ofFn (N.head.runTut E (pooled40 oE out)), ?_, ?_, ?_⟩
      · unfold NetTut.GpuLogits
        dsimp only
        rw [hf0]
        exact ⟨_, gpuTutTrain_forward E a Ws N cl _ _ _ _ _ _ _ _ _ _ _ ht', rfl⟩
      · rw [h1, List.length_ofFn, List.length_ofFn]
      · rw [h2, h1]
        rfl

theorem NetTut.GpuTrainStep.shape {E : NetEnv} {a : NonLin} {Ws : ℕ} {N : NetTut (k + 2)} {cs : List ℕ} {cl c1 C : ℕ} {e : ℝ}
    {clouds : List (CloudObj (Fin (k + 2) → ℝ))} {feats : List (List (ℕ → ℝ))} {labels : List ℕ}
    {loss : ℝ} {g : TutGrads} (ht : N.GpuTrainStep E a Ws cs cl c1 C e clouds feats labels loss g) :
    TutLevelsShape N.levels g.levels ∧ ConvShape N.last g.last := by
  unfold NetTut.GpuTrainStep at ht
  match clouds, ht with
  | o :: os, ht =>
    dsimp only at ht
    cases hf0 : (o.flattenFeatures feats).1 with
    | error er => rw [hf0] at ht; exact ht.elim
    | ok f0 =>
      rw [hf0] at ht
      obtain ⟨oE, out, lab, gs, gl, fG, hg, _, _, _, ht', rfl⟩ := ht
      exact gpuTutTrain_shape E a Ws N cl _ _ _ _ _ _ _ _ _ _ _ ht'

/-! ### Away from kinks -/

/-- No activation function of the convolutions is evaluated at its kink, from the features `f` on; `cs` are the numbers of
channels of the levels. -/
def tutLevelsOff (E : NetEnv) (a : NonLin) (Ws : ℕ) (N : NetTut (k + 2)) : (o : CloudObj (Fin (k + 2) → ℝ)) →
    (Fin o.c.n → ℕ → ℝ) → List (CloudObj (Fin (k + 2) → ℝ)) → List (LevelTut (k + 2)) → List ℕ → Prop
  | o, f, [o'], [], [] => N.last.Smooth a o.c o'.c N.lastConvRadius
  | o, f, o' :: os, l :: ls, c :: cs => l.conv.Smooth a o.c o'.c l.convRadius ∧
      ∀ r, l.conv.GpuCall E Ws o.c o'.c l.convRadius f (.ok r) →
        (∀ i, ∀ ch < c, l.bn.apply true r i ch ≠ 0) ∧ tutLevelsOff E a Ws N o' (E.bnAct l.bn r) os ls cs
  | _, _, _, _, _ => True

/-- No activation function of the network is evaluated at its kink and no probability is at a bound of the clipping, whatever
the schedule. -/
def NetTut.Off (E : NetEnv) (a : NonLin) (Ws : ℕ) (cs : List ℕ) (cl c1 C : ℕ) (e : ℝ)
    (N : NetTut (k + 2)) (clouds : List (CloudObj (Fin (k + 2) → ℝ))) (feats : List (List (ℕ → ℝ))) : Prop :=
  ∀ o os, clouds = o :: os → ∀ f0, (o.flattenFeatures feats).1 = .ok f0 →
    tutLevelsOff E a Ws N o f0 os N.levels cs ∧
    ∀ oE fE, gpuNetTutLoop E Ws N o f0 os N.levels (.ok ⟨oE, fE⟩) →
      (∀ i, ∀ ch < cl, N.head.bn1.apply true (pooled40 oE fE) i ch ≠ 0) ∧
      (∀ i, ∀ ch < c1, N.head.bn2.apply true (N.head.dense1.apply (E.bnAct N.head.bn1 (pooled40 oE fE))) i ch ≠ 0) ∧
      ∀ b, OffClip C e (N.head.runTut E (pooled40 oE fE) b)

theorem tutLevelsLine_smooth (E : NetEnv) (a : NonLin) (Ws : ℕ) (N : NetTut (k + 2)) (M : TutCurve (k + 2)) (lastA : NetConv (k + 2))
    (gl : ConvGrads) (hl : ConvShape N.last gl) (hM : M.last = N.last.line ρ ε lastA gl) (hR : M.lastConvRadius = N.lastConvRadius) (cl : ℕ) :
    ∀ (ls As : List (LevelTut (k + 2))) (cs : List ℕ) (gs : List TutLevelGrads) (ci : ℕ) (os : List (CloudObj (Fin (k + 2) → ℝ)))
      (o : CloudObj (Fin (k + 2) → ℝ)) (f : Fin o.c.n → ℕ → ℝ), tutLevelsRmsFit N.last lastA cl ci ls As cs → TutLevelsShape ls gs →
      tutLevelsOff E a Ws N o f os ls cs → tutLevelsSmooth E a Ws 0 M o f os (tutLevelsLine ρ ε ls As gs cs) := by
  intro ls
  induction ls with
  | nil =>
    intro As cs gs ci os o f hf hg h
    cases hg
    match As, cs, hf with
    | [], [], hf =>
      match os, h with
      | [], h => trivial
      | [o'], h =>
        change M.last.Smooth a 0 o.c o'.c M.lastConvRadius
        rw [hM, hR]
        exact N.last.line_smooth a _ _ hf hl h
      | _ :: _ :: _, h => trivial
  | cons l ls ih =>
    intro As cs gs ci os o f hf hg h
    cases hg with
    | cons hg hgs =>
    rename_i g gs
    match As, cs, hf with
    | A :: As, c :: cs, ⟨hf, hfs⟩ =>
      match os, h with
      | [], h => trivial
      | o' :: os, h =>
        rw [tutLevelsOff] at h
        rw [tutLevelsLine, tutLevelsSmooth]
        refine ⟨l.conv.line_smooth a _ _ hf.2.1 hg h.1, fun r hr => ?_⟩
        have e : ((l.line ρ ε A g c).conv.at 0) = l.conv := by
          change (l.conv.line ρ ε A.conv g.conv).at 0 = _
          rw [l.conv.line_at 0 _ _ hf.2.1 hg, NetConv.rms_zero]
        rw [e] at hr
        have e1 : (l.line ρ ε A g c).bn 0 = l.bn := BNorm.rms_zero _ _ _
        rw [e1]
        obtain ⟨q1, q3⟩ := h.2 r hr
        exact ⟨q1, ih As cs gs c os o' _ hfs hgs q3⟩

theorem NetTut.line_smooth (h0 : 0 ≤ ρ) (h1 : ρ ≤ 1) (hε : 0 < ε) (E : NetEnv) (a : NonLin) (Ws : ℕ) {ci : ℕ} (N A : NetTut (k + 2)) (g : TutGrads)
    (cs : List ℕ) (cl c1 C : ℕ) (hf : N.RmsFits ci A cs cl c1) (hsh : TutLevelsShape N.levels g.levels) (hl : ConvShape N.last g.last)
    (e : ℝ) (clouds : List (CloudObj (Fin (k + 2) → ℝ))) (feats : List (List (ℕ → ℝ)))
    (hs : N.Off E a Ws cs cl c1 C e clouds feats) : (N.line ρ ε A g cs cl c1 C).Smooth E a Ws 0 e clouds feats := by
  intro o os ec f0 hf0
  obtain ⟨q1, q2⟩ := hs o os ec f0 hf0
  refine ⟨tutLevelsLine_smooth E a Ws N _ A.last g.last hl rfl rfl cl _ _ _ _ ci _ _ _ hf.levels hsh q1, fun oE fE h => ?_⟩
  rw [N.line_at h0 h1 hε A g cs cl c1 C hf hsh hl, NetTut.rms_zero] at h
  have eh : (N.line ρ ε A g cs cl c1 C).head 0 = N.head := NetHead.rms_zero _ _ _
  rw [eh]
  exact q2 oE fE h

/-- **C162, network of the tutorial**: let `g` be the gradients of a training step and not all be zero.  For all small enough
learning rates, the network after the update has a smaller loss on the same batch, whatever the schedules on the GPU and
whatever the optimiser has accumulated before. -/
theorem C162_tutorial_partial (h0 : 0 ≤ ρ) (h1 : ρ ≤ 1) (hε : 0 < ε) (hk : k ≤ 1) (E : NetEnv) (a : NonLin) (hE : E.act = a.fwd)
    (hT : E.training = true) (hL : E.lrelu = kerasLrelu) {Ws : ℕ} (hW : 0 < Ws) (N A : NetTut (k + 2)) (ci : ℕ)
    (cs : List ℕ) (cl c1 C : ℕ) (hN : N.RmsFits ci A cs cl c1)
    (e : ℝ) (he : 0 < e) (he' : e < 1 / 2) (clouds : List (CloudObj (Fin (k + 2) → ℝ))) (hc : ∀ p ∈ clouds, GpuCloud Ws p.c)
    (feats : List (List (ℕ → ℝ))) (labels : List ℕ) (hlab : ∀ l ∈ labels, l < C) (loss : ℝ) (g : TutGrads)
    (ht : N.GpuTrainStep E a Ws cs cl c1 C e clouds feats labels loss g)
    (hs : N.Off E a Ws cs cl c1 C e clouds feats) (hg : ∃ x ∈ N.nums ci cs cl c1 C g, x ≠ 0) :
    ∃ δ > 0, ∀ η, 0 < η → η < δ → ∀ l, (N.rms ρ ε η A g).GpuLoss E Ws C e clouds feats labels l → l < loss := by
  have hloss := ht.loss
  obtain ⟨hsh, hsl⟩ := ht.shape
  obtain ⟨_, i2, i3, i4, _⟩ := tutLevelsLine_spec (ρ := ρ) (ε := ε) h0 h1 hε N.last A.last cl g.last hsl _ _ _ _ ci hN.levels hsh
  have hd : Down ((N.line ρ ε A g cs cl c1 C).pairing 0 ci g) (N.nums ci cs cl c1 C g) :=
    i4.add (N.head.rms_down h0 h1 hε _ _ _ _ _)
  have hat : ∀ η, (N.line ρ ε A g cs cl c1 C).at η = N.rms ρ ε η A g := N.line_at h0 h1 hε A g cs cl c1 C hN hsh hsl
  have hneg : (N.line ρ ε A g cs cl c1 C).pairing 0 ci g < 0 := by
    refine lt_of_le_of_ne hd.1 fun h => ?_
    obtain ⟨x, hx, hx0⟩ := hg
    exact hx0 (hd.2 h x hx)
  have hrun : ∀ η, ∃ l, (N.rms ρ ε η A g).GpuLoss E Ws C e clouds feats labels l := by
    intro η
    obtain ⟨r1, _, r2⟩ := tutLevelsRms_like (ρ := ρ) (ε := ε) η cl N.last A.last _ _ _ _ ci hN.levels hsh
    exact N.like_runs E hW (N.rms ρ ε η A g) rfl hN.radius (N.last.rms_ready η _ _ r2) r1 C e clouds hc feats labels hloss
  refine lower_of_runs hrun hneg fun f hf hfr => ?_
  refine C168_tutorial_partial hk E a hE hT hL hW 0 (N.line ρ ε A g cs cl c1 C) ci ⟨i3, hN.radius, N.head.rms_moves _ _ _ hN.head⟩ e he he'
    clouds hc feats labels hlab (N.line_smooth h0 h1 hε E a Ws A g cs cl c1 C hN hsh hsl e clouds feats hs) f
    (fun η hη => by rw [hat]; exact hfr η hη) g ?_
  rw [hat, NetTut.rms_zero, hf]
  have : (N.line ρ ε A g cs cl c1 C).levels.map (fun l => l.co) = cs := i2
  rw [this]
  exact ht

/-- **C162, first step of the tutorial**: the first update of `Adam`, with a small enough learning rate, lowers the loss of
its batch. -/
theorem C162_adamFirst_partial {β₂ : ℝ} (hβ : β₂ < 1) (hε : 0 < ε) (hk : k ≤ 1) (E : NetEnv) (a : NonLin) (hE : E.act = a.fwd)
    (hT : E.training = true) (hL : E.lrelu = kerasLrelu) {Ws : ℕ} (hW : 0 < Ws) (N : NetTut (k + 2)) (ci : ℕ)
    (cs : List ℕ) (cl c1 C : ℕ) (hN : N.RmsFits ci N cs cl c1)
    (e : ℝ) (he : 0 < e) (he' : e < 1 / 2) (clouds : List (CloudObj (Fin (k + 2) → ℝ))) (hc : ∀ p ∈ clouds, GpuCloud Ws p.c)
    (feats : List (List (ℕ → ℝ))) (labels : List ℕ) (hlab : ∀ l ∈ labels, l < C) (loss : ℝ) (g : TutGrads)
    (ht : N.GpuTrainStep E a Ws cs cl c1 C e clouds feats labels loss g)
    (hs : N.Off E a Ws cs cl c1 C e clouds feats) (hg : ∃ x ∈ N.nums ci cs cl c1 C g, x ≠ 0) :
    ∃ δ > 0, ∀ η, 0 < η → η < δ → ∀ l, (N.adamFirst β₂ ε η g).GpuLoss E Ws C e clouds feats labels l → l < loss :=
  C162_tutorial_partial le_rfl zero_le_one (div_pos hε (Real.sqrt_pos.mpr (by linarith))) hk E a hE hT hL hW N N ci cs cl c1 C hN e he he'
    clouds hc feats labels hlab loss g ht hs hg

end

/-! ### The hypotheses can be met -/

theorem exTut_off : (exTutCurve.at 0).Off (k := 0) exTrainEnv .elu 1 [1] 1 1 2 (1 / 10 ^ 7)
    [exO3, exO2, exO2] [[fun _ => 1, fun _ => 2], [fun _ => 3, fun _ => 0]] := by
  intro o os e f0 hf
  obtain ⟨q1, q2⟩ := exTutCurve_smooth o os e f0 hf
  refine ⟨?_, q2⟩
  obtain ⟨rfl, rfl⟩ := List.cons.inj e
  exact ⟨exConvCurve_smooth _ _, fun r hr => ⟨(q1.2 r hr).1, exConvCurve_smooth _ _⟩⟩

theorem exTut_fits : (exTutCurve.at 0).RmsFits 1 (exTutCurve.at 0) [1] 1 1 := by
  refine ⟨⟨⟨one_pos, ?_, one_pos⟩, ?_⟩, one_pos, one_pos, rfl, one_pos, rfl⟩
  · exact ⟨rfl, rfl, one_ne_zero, one_dvd _, by simp, rfl, by decide, by decide⟩
  · exact ⟨rfl, rfl, one_ne_zero, one_dvd _, by simp, rfl, by decide, by decide⟩

example : ∃ loss g, (exTutCurve.at 0).GpuTrainStep (k := 0) exTrainEnv .elu 1 [1] 1 1 2 (1 / 10 ^ 7)
      [exO3, exO2, exO2] [[fun _ => 1, fun _ => 2], [fun _ => 3, fun _ => 0]] [0, 0] loss g ∧
    ∃ δ > 0, ∀ η, 0 < η → η < δ → ∀ l, ((exTutCurve.at 0).adamFirst (999 / 1000) (1 / 10 ^ 7) η g).GpuLoss (k := 0) exTrainEnv 1 2
      (1 / 10 ^ 7) [exO3, exO2, exO2] [[fun _ => 1, fun _ => 2], [fun _ => 3, fun _ => 0]] [0, 0] l → l < loss := by
  obtain ⟨_, logits, q1, q2, _⟩ := exTutLoss_runs 0
  obtain ⟨g, hg⟩ := C168_runs (k := 0) exTrainEnv .elu one_pos (exTutCurve.at 0) one_pos
    (by simp [exTutCurve, TutCurve.at, TutLevelCurve.at]) [1] rfl 1 1 2 _ _ exClouds _ [0, 0] _ ⟨logits, q1, q2, rfl⟩
  refine ⟨_, g, hg, C162_adamFirst_partial (k := 0) (by norm_num) (by norm_num) (by omega) exTrainEnv .elu rfl rfl rfl
    one_pos (exTutCurve.at 0) 1 [1] 1 1 2 exTut_fits _ (by norm_num)
    (by norm_num) _ exClouds _ _ (by simp) _ g hg exTut_off ⟨g.head.dense2.b 0, ?_, ?_⟩⟩
  · exact List.mem_append_right _ (mem_headNums _ _ _)
  · unfold NetTut.GpuTrainStep at hg
    dsimp only at hg
    cases hf0 : (exO3.flattenFeatures [[fun _ : ℕ => (1 : ℝ), fun _ => 2], [fun _ => 3, fun _ => 0]]).1 with
    | error er => rw [hf0] at hg; exact hg.elim
    | ok f0 =>
      rw [hf0] at hg
      obtain ⟨oE, out, lab, gs, gl, fG, h, e1, _, rfl, _, rfl⟩ := hg
      have hn : oE.c.B = 2 := by
        have := congrArg List.length e1
        rw [List.length_ofFn] at this
        exact this.symm
      refine exBias _ (by omega) lab (fun i => ?_) _ (fun i j => ?_) _ _
      · have : lab i ∈ [0, 0] := by rw [e1]; exact List.mem_ofFn.mpr ⟨i, rfl⟩
        simpa using this
      · simp only [NetHead.runTut, Lin.apply, conv1x1, exTutCurve, TutCurve.at, Finset.sum_range_one]
        split <;> simp

end PC
