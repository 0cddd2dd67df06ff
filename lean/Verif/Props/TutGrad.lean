import Verif.TutGrad
import Verif.Props.GpuTut
import Verif.Props.NetGrad40

/-!
# Gradients of the network of the tutorial (C168)
-/

set_option linter.unusedVariables false

namespace PC

section
variable {k : ℕ}

/-! ### The head -/

/-- Head of the tutorial: the logits move with velocities whose pairing with any gradient is the sum of all returned
gradients times the velocities of parameters and features. -/
theorem head_tut (E : NetEnv) (hT : E.training = true) (hL : E.lrelu = kerasLrelu) (θ₀ : ℝ) (c0 c1 C : ℕ) (h : ℝ → NetHead)
    (V : NetHead) (hV : HeadMoves θ₀ c0 c1 C h V) {n : ℕ}
    (f : ℝ → Fin n → ℕ → ℝ) (f' : Fin n → ℕ → ℝ) (hf : MatMoves θ₀ c0 f f')
    (hk1 : ∀ i, ∀ ch < c0, (h θ₀).bn1.apply true (f θ₀) i ch ≠ 0)
    (hk2 : ∀ i, ∀ ch < c1, (h θ₀).bn2.apply true ((h θ₀).dense1.apply (E.bnAct (h θ₀).bn1 (f θ₀))) i ch ≠ 0) :
    ∃ o', MatMoves θ₀ C (fun θ => (h θ).runTut E (f θ)) o' ∧ ∀ G, matPairing C G o' =
      headPairing c0 c1 C ((h θ₀).backTut c1 C (f θ₀) G) V + matPairing c0 ((h θ₀).backTut c1 C (f θ₀) G).bn1.x f' := by
  have hb : ∀ (bn : BNorm) (u : Fin n → ℕ → ℝ), E.bnAct bn u = fun i ch => kerasLrelu (bn.apply true u i ch) := by
    intro bn u
    unfold NetEnv.bnAct
    rw [hT, hL]
  obtain ⟨d1', h1, p1⟩ := bnAct_node E hT hL θ₀ c0 _ _ hV.bn1 f f' hf hk1
  obtain ⟨z', h2, p2⟩ := C159_linear θ₀ c0 c1 _ _ hV.dense1 _ d1' h1
  obtain ⟨d2', h3, p3⟩ := bnAct_node E hT hL θ₀ c1 _ _ hV.bn2 _ z' h2 hk2
  obtain ⟨o', h4, p4⟩ := C159_linear θ₀ c1 C _ _ hV.dense2 _ d2' h3
  refine ⟨o', h4, fun G => ?_⟩
  rw [p4, p3, p2, p1]
  simp only [hb]
  unfold headPairing NetHead.backTut
  ring

/-! ### The network with moving variables -/

/-- A convolution before the last with its normalisation, whose variables move; `co` is the number of channels after it. -/
structure TutLevelCurve (D : ℕ) where
  conv : ConvCurve D
  bn : ℝ → BNorm
  bn' : BNorm
  sampleRadius : ℝ
  convRadius : ℝ
  co : ℕ

/-- The level at `θ`. -/
def TutLevelCurve.at {D : ℕ} (l : TutLevelCurve D) (θ : ℝ) : LevelTut D := ⟨l.conv.at θ, l.bn θ, l.sampleRadius, l.convRadius⟩

/-- The network with moving variables: `cl` channels after the last convolution, `c1` between the dense layers of the head,
`C` classes. -/
structure TutCurve (D : ℕ) where
  levels : List (TutLevelCurve D)
  last : ConvCurve D
  lastSampleRadius : ℝ
  lastConvRadius : ℝ
  head : ℝ → NetHead
  head' : NetHead
  cl : ℕ
  c1 : ℕ
  C : ℕ

/-- The network at `θ`. -/
def TutCurve.at {D : ℕ} (N : TutCurve D) (θ : ℝ) : NetTut D :=
  ⟨N.levels.map (fun l => l.at θ), N.last.at θ, N.lastSampleRadius, N.lastConvRadius, N.head θ⟩

/-- All variables of the levels have the given velocities, and channels fit together, starting with `ci` channels. -/
def tutLevelsMove {D : ℕ} (θ₀ : ℝ) (last : ConvCurve D) (cl : ℕ) : ℕ → List (TutLevelCurve D) → Prop
  | ci, [] => last.Moves θ₀ ci cl
  | ci, l :: ls => 0 < l.convRadius ∧ l.conv.Moves θ₀ ci l.co ∧ BnMoves θ₀ l.co l.bn l.bn' ∧ tutLevelsMove θ₀ last cl l.co ls

/-- Gradients times velocities of the variables of the levels and of the last convolution. -/
noncomputable def tutLevelsPairing {D : ℕ} (θ₀ : ℝ) (last : ConvCurve D) (cl : ℕ) : ℕ → List (TutLevelCurve D) →
    List TutLevelGrads → ConvGrads → ℝ
  | ci, l :: ls, g :: gs, gl => l.conv.pairing θ₀ ci l.co g.conv + bnPairing l.co g.bn l.bn' +
      tutLevelsPairing θ₀ last cl l.co ls gs gl
  | ci, _, _, gl => last.pairing θ₀ ci cl gl

/-- No activation function of the levels is evaluated at its kink, whatever the schedule. -/
def tutLevelsSmooth (E : NetEnv) (a : NonLin) (Ws : ℕ) (θ₀ : ℝ) (N : TutCurve (k + 2)) : (o : CloudObj (Fin (k + 2) → ℝ)) →
    (Fin o.c.n → ℕ → ℝ) → List (CloudObj (Fin (k + 2) → ℝ)) → List (TutLevelCurve (k + 2)) → Prop
  | o, f, [o'], [] => N.last.Smooth a θ₀ o.c o'.c N.lastConvRadius
  | o, f, o' :: os, l :: ls => l.conv.Smooth a θ₀ o.c o'.c l.convRadius ∧
      ∀ r, (l.conv.at θ₀).GpuCall E Ws o.c o'.c l.convRadius f (.ok r) →
        (∀ i, ∀ ch < l.co, (l.bn θ₀).apply true r i ch ≠ 0) ∧ tutLevelsSmooth E a Ws θ₀ N o' (E.bnAct (l.bn θ₀) r) os ls
  | _, _, _, _ => True

theorem gpuTutTrain_cons (E : NetEnv) (a : NonLin) (Ws : ℕ) (N : NetTut (k + 2)) (cl : ℕ) (o o' : CloudObj (Fin (k + 2) → ℝ))
    (f : Fin o.c.n → ℕ → ℝ) (os : List (CloudObj (Fin (k + 2) → ℝ))) (l : LevelTut (k + 2)) (ls : List (LevelTut (k + 2)))
    (c : ℕ) (cs : List ℕ) (oE : CloudObj (Fin (k + 2) → ℝ)) (fE G : Fin oE.c.n → ℕ → ℝ) (gs : List TutLevelGrads) (gl : ConvGrads)
    (fG : Fin o.c.n → ℕ → ℝ) :
    gpuTutTrain E a Ws N cl o f (o' :: os) (l :: ls) (c :: cs) oE fE G gs gl fG ↔
    ∃ (r G' : Fin o'.c.n → ℕ → ℝ) (gc : ConvGrads) (gs' : List TutLevelGrads) (g1 : BnGrads o'.c.n),
      l.conv.GpuCall E Ws o.c o'.c l.convRadius f (.ok r) ∧
      gpuTutTrain E a Ws N cl o' (E.bnAct l.bn r) os ls cs oE fE G gs' gl G' ∧
      g1 = bnActBack l.bn r G' ∧
      l.conv.GpuTrain a Ws E.eps c o.c o'.c l.convRadius f g1.x gc fG ∧
      gs = ⟨o'.c.n, gc, g1⟩ :: gs' := by
  cases os <;> rfl

theorem tutLevelsSmooth_cons (E : NetEnv) (a : NonLin) (Ws : ℕ) (θ₀ : ℝ) (N : TutCurve (k + 2)) (o o' : CloudObj (Fin (k + 2) → ℝ))
    (f : Fin o.c.n → ℕ → ℝ) (os : List (CloudObj (Fin (k + 2) → ℝ))) (l : TutLevelCurve (k + 2)) (ls : List (TutLevelCurve (k + 2))) :
    tutLevelsSmooth E a Ws θ₀ N o f (o' :: os) (l :: ls) ↔ l.conv.Smooth a θ₀ o.c o'.c l.convRadius ∧
      ∀ r, (l.conv.at θ₀).GpuCall E Ws o.c o'.c l.convRadius f (.ok r) →
        (∀ i, ∀ ch < l.co, (l.bn θ₀).apply true r i ch ≠ 0) ∧ tutLevelsSmooth E a Ws θ₀ N o' (E.bnAct (l.bn θ₀) r) os ls := by
  cases os <;> rfl

/-- The forward pass of a training step is a run of the network. -/
theorem gpuTutTrain_forward (E : NetEnv) (a : NonLin) (Ws : ℕ) (N : NetTut (k + 2)) (cl : ℕ) :
    ∀ (ls : List (LevelTut (k + 2))) (cs : List ℕ) (os : List (CloudObj (Fin (k + 2) → ℝ))) (o : CloudObj (Fin (k + 2) → ℝ))
      (f : Fin o.c.n → ℕ → ℝ) (oE : CloudObj (Fin (k + 2) → ℝ)) (fE G : Fin oE.c.n → ℕ → ℝ) (gs : List TutLevelGrads) (gl : ConvGrads)
      (fG : Fin o.c.n → ℕ → ℝ),
      gpuTutTrain E a Ws N cl o f os ls cs oE fE G gs gl fG → gpuNetTutLoop E Ws N o f os ls (.ok ⟨oE, fE⟩)
  | [], [], [o'], o, f, oE, fE, G, gs, gl, fG, h => by
    obtain ⟨r, G', h1, h2, _⟩ := h
    cases h2
    exact ⟨_, h1, rfl⟩
  | l :: ls, c :: cs, o' :: os, o, f, oE, fE, G, gs, gl, fG, h => by
    obtain ⟨r, G', gc, gs', g1, h1, h2, _⟩ := (gpuTutTrain_cons ..).mp h
    exact (gpuNetTutLoop_cons ..).mpr ⟨_, h1, gpuTutTrain_forward E a Ws N cl ls cs os o' _ oE fE G gs' gl G' h2⟩
  | [], [], [], o, f, oE, fE, G, gs, gl, fG, h => h.elim
  | [], [], _ :: _ :: _, o, f, oE, fE, G, gs, gl, fG, h => h.elim
  | [], _ :: _, [], o, f, oE, fE, G, gs, gl, fG, h => h.elim
  | [], _ :: _, [_], o, f, oE, fE, G, gs, gl, fG, h => h.elim
  | [], _ :: _, _ :: _ :: _, o, f, oE, fE, G, gs, gl, fG, h => h.elim
  | _ :: _, [], [], o, f, oE, fE, G, gs, gl, fG, h => h.elim
  | _ :: _, [], [_], o, f, oE, fE, G, gs, gl, fG, h => h.elim
  | _ :: _, [], _ :: _ :: _, o, f, oE, fE, G, gs, gl, fG, h => h.elim
  | _ :: _, _ :: _, [], o, f, oE, fE, G, gs, gl, fG, h => h.elim

/-- The features returned by the loop belong to the last cloud. -/
theorem gpuNetTutLoop_last (E : NetEnv) (Ws : ℕ) (N : NetTut (k + 2)) (ls : List (LevelTut (k + 2))) :
    ∀ (os : List (CloudObj (Fin (k + 2) → ℝ))) (o : CloudObj (Fin (k + 2) → ℝ)) (f : Fin o.c.n → ℕ → ℝ)
    (oE : CloudObj (Fin (k + 2) → ℝ)) (fE : Fin oE.c.n → ℕ → ℝ),
    gpuNetTutLoop E Ws N o f os ls (.ok ⟨oE, fE⟩) → oE = (o :: os).getLast (by simp) := by
  induction ls with
  | nil =>
    intro os o f oE fE h
    match os, h with
    | [], h => unfold gpuNetTutLoop at h; cases h
    | _ :: _ :: _, h => unfold gpuNetTutLoop at h; cases h
    | [o'], h =>
      unfold gpuNetTutLoop at h
      obtain ⟨r, _, h⟩ := h
      match r, h with
      | .ok r, h => exact (Sigma.mk.inj (Except.ok.inj h)).1
  | cons l ls ih =>
    intro os o f oE fE h
    match os, h with
    | [], h => unfold gpuNetTutLoop at h; cases h
    | o' :: os, h =>
      obtain ⟨r, _, h⟩ := (gpuNetTutLoop_cons ..).mp h
      match r, h with
      | .ok r, h => exact (ih os o' _ oE fE h).trans (List.getLast_cons (List.cons_ne_nil o' os)).symm

/-- **C168, the convolutions**: induction over the levels. -/
theorem C168_levels_partial (hk : k ≤ 1) (E : NetEnv) (a : NonLin) (hE : E.act = a.fwd) (hT : E.training = true)
    (hL : E.lrelu = kerasLrelu) {Ws : ℕ} (hW : 0 < Ws) (θ₀ : ℝ) (N : TutCurve (k + 2)) (hlr : 0 < N.lastConvRadius) :
    ∀ (ls : List (TutLevelCurve (k + 2))) (os : List (CloudObj (Fin (k + 2) → ℝ))) (o : CloudObj (Fin (k + 2) → ℝ))
      (ci : ℕ) (_ : tutLevelsMove θ₀ N.last N.cl ci ls) (_ : ∀ p ∈ o :: os, GpuCloud Ws p.c)
      (f : ℝ → Fin o.c.n → ℕ → ℝ) (f' : Fin o.c.n → ℕ → ℝ) (_ : MatMoves θ₀ ci f f')
      (_ : tutLevelsSmooth E a Ws θ₀ N o (f θ₀) os ls)
      (oE : CloudObj (Fin (k + 2) → ℝ)) (fE : ℝ → Fin oE.c.n → ℕ → ℝ)
      (_ : ∀ θ, θ ≠ θ₀ → gpuNetTutLoop E Ws (N.at θ) o (f θ) os (ls.map (fun l => l.at θ)) (.ok ⟨oE, fE θ⟩))
      (G : Fin oE.c.n → ℕ → ℝ) (gs : List TutLevelGrads) (gl : ConvGrads) (fG : Fin o.c.n → ℕ → ℝ)
      (_ : gpuTutTrain E a Ws (N.at θ₀) N.cl o (f θ₀) os (ls.map (fun l => l.at θ₀)) (ls.map (fun l => l.co)) oE
        (fE θ₀) G gs gl fG),
      ∃ o', MatMoves θ₀ N.cl fE o' ∧
        matPairing N.cl G o' = tutLevelsPairing θ₀ N.last N.cl ci ls gs gl + matPairing ci fG f'
  | [], [], o, ci, hm, hc, f, f', hf, hs, oE, fE, hrun, G, gs, gl, fG, ht => ht.elim
  | [], _ :: _ :: _, o, ci, hm, hc, f, f', hf, hs, oE, fE, hrun, G, gs, gl, fG, ht => ht.elim
  | _ :: _, [], o, ci, hm, hc, f, f', hf, hs, oE, fE, hrun, G, gs, gl, fG, ht => ht.elim
  | [], [q], o, ci, hm, hc, f, f', hf, hs, oE, fE, hrun, G, gs, gl, fG, ht => by
    obtain ⟨r, G', h1, h2, h3, rfl⟩ := ht
    obtain ⟨rfl, h4⟩ := Sigma.mk.inj h2
    obtain ⟨h6, rfl⟩ := Prod.mk.inj (eq_of_heq h4)
    have hall : ∀ θ, (N.last.at θ).GpuCall E Ws o.c oE.c N.lastConvRadius (f θ) (.ok (fE θ)) := by
      intro θ
      by_cases hθ : θ = θ₀
      · subst hθ
        rw [h6]
        exact h1
      · obtain ⟨r', a1, a2⟩ := hrun θ hθ
        match r', a1, a2 with
        | .ok r', a1, a2 =>
          have := eq_of_heq (Sigma.mk.inj (Except.ok.inj a2)).2
          rw [this]
          exact a1
    obtain ⟨c', m1, p1⟩ := conv_node hk E a hE hW θ₀ ci N.cl N.last hm (hc o (by simp)) (hc oE (by simp)) hlr hs f f' hf fE hall
    exact ⟨_, m1, p1 _ gl fG h3⟩
  | l :: ls, q :: os, o, ci, hm, hc, f, f', hf, hs, oE, fE, hrun, G, gs, gl, fG, ht => by
    obtain ⟨r, G', gc, gs', g1, h1, h2, hg1, h3, rfl⟩ := (gpuTutTrain_cons ..).mp ht
    obtain ⟨m0, mc, mb, mrest⟩ := hm
    obtain ⟨s1, s2⟩ := (tutLevelsSmooth_cons ..).mp hs
    obtain ⟨s3, s4⟩ := s2 r h1
    have hall : ∀ θ, ∃ r', (l.conv.at θ).GpuCall E Ws o.c q.c l.convRadius (f θ) (.ok r') ∧ (θ = θ₀ → r' = r) ∧
        (θ ≠ θ₀ → gpuNetTutLoop E Ws (N.at θ) q (E.bnAct (l.bn θ) r') os (ls.map (fun l => l.at θ)) (.ok ⟨oE, fE θ⟩)) := by
      intro θ
      by_cases hθ : θ = θ₀
      · subst hθ
        exact ⟨r, h1, fun _ => rfl, fun h => absurd rfl h⟩
      · obtain ⟨r', a1, a2⟩ := (gpuNetTutLoop_cons ..).mp (hrun θ hθ)
        match r', a1, a2 with
        | .ok r', a1, a2 => exact ⟨r', a1, fun h => absurd h hθ, fun _ => a2⟩
    choose ro hro hro₀ hnext using hall
    have hr0 : ro θ₀ = r := hro₀ θ₀ rfl
    obtain ⟨c', m1, p1⟩ := conv_node hk E a hE hW θ₀ ci l.co l.conv mc (hc o (by simp)) (hc q (by simp)) m0 s1 f f' hf ro hro
    obtain ⟨u1, m2, p2⟩ := bnAct_node E hT hL θ₀ l.co l.bn l.bn' mb ro c' m1 (by rw [hr0]; exact s3)
    simp only [hr0] at p2
    obtain ⟨o', m5, p5⟩ := C168_levels_partial hk E a hE hT hL hW θ₀ N hlr ls os q l.co mrest
      (fun p hp => hc p (List.mem_cons_of_mem _ hp)) _ u1 m2 (by rw [hr0]; exact s4) oE fE hnext G gs' gl G' (by rw [hr0]; exact h2)
    refine ⟨o', m5, ?_⟩
    have e1 : bnActBack (l.bn θ₀) r G' = g1 := hg1.symm
    rw [p5, p2, e1, p1 g1.x gc fG h3, tutLevelsPairing]
    ring

/-- All variables of the network have the given velocities at `θ₀`; the input has `ci` features per point. -/
structure TutCurve.Moves {D : ℕ} (θ₀ : ℝ) (ci : ℕ) (N : TutCurve D) : Prop where
  levels : tutLevelsMove θ₀ N.last N.cl ci N.levels
  radius : 0 < N.lastConvRadius
  head : HeadMoves θ₀ N.cl N.c1 N.C N.head N.head'

/-- No activation function is evaluated at its kink and no probability is at a bound of the clipping, whatever the
schedule. -/
def TutCurve.Smooth (E : NetEnv) (a : NonLin) (Ws : ℕ) (θ₀ e : ℝ) (N : TutCurve (k + 2))
    (clouds : List (CloudObj (Fin (k + 2) → ℝ))) (feats : List (List (ℕ → ℝ))) : Prop :=
  ∀ o os, clouds = o :: os → ∀ f0, (o.flattenFeatures feats).1 = .ok f0 →
    tutLevelsSmooth E a Ws θ₀ N o f0 os N.levels ∧
    ∀ oE fE, gpuNetTutLoop E Ws (N.at θ₀) o f0 os (N.at θ₀).levels (.ok ⟨oE, fE⟩) →
      (∀ i, ∀ ch < N.cl, (N.head θ₀).bn1.apply true (pooled40 oE fE) i ch ≠ 0) ∧
      (∀ i, ∀ ch < N.c1, (N.head θ₀).bn2.apply true ((N.head θ₀).dense1.apply (E.bnAct (N.head θ₀).bn1 (pooled40 oE fE))) i ch ≠ 0) ∧
      ∀ b, OffClip N.C e ((N.head θ₀).runTut E (pooled40 oE fE) b)

/-- Gradients times velocities of all variables of the network. -/
noncomputable def TutCurve.pairing {D : ℕ} (θ₀ : ℝ) (ci : ℕ) (N : TutCurve D) (g : TutGrads) : ℝ :=
  tutLevelsPairing θ₀ N.last N.cl ci N.levels g.levels g.last + headPairing N.cl N.c1 N.C g.head N.head'

/-- **C168**: the variables of the network of the tutorial move along any curve differentiable at `θ₀`.  For every training
step at `θ₀` and all runs of the network elsewhere, the loss is differentiable at `θ₀`, and its derivative is the sum of all
returned gradients times the velocities of the variables. -/
theorem C168_tutorial_partial (hk : k ≤ 1) (E : NetEnv) (a : NonLin) (hE : E.act = a.fwd) (hT : E.training = true)
    (hL : E.lrelu = kerasLrelu) {Ws : ℕ} (hW : 0 < Ws) (θ₀ : ℝ) (N : TutCurve (k + 2)) (ci : ℕ) (hN : N.Moves θ₀ ci)
    (e : ℝ) (he : 0 < e) (he' : e < 1 / 2) (clouds : List (CloudObj (Fin (k + 2) → ℝ))) (hc : ∀ p ∈ clouds, GpuCloud Ws p.c)
    (feats : List (List (ℕ → ℝ))) (labels : List ℕ) (hlab : ∀ l ∈ labels, l < N.C)
    (hs : N.Smooth E a Ws θ₀ e clouds feats) (loss : ℝ → ℝ)
    (hrun : ∀ θ, θ ≠ θ₀ → (N.at θ).GpuLoss E Ws N.C e clouds feats labels (loss θ)) (g : TutGrads)
    (ht : (N.at θ₀).GpuTrainStep E a Ws (N.levels.map (fun l => l.co)) N.cl N.c1 N.C e clouds feats labels (loss θ₀) g) :
    HasDerivAt loss (N.pairing θ₀ ci g) θ₀ := by
  match clouds, hc, hs, hrun, ht with
  | o :: os, hc, hs, hrun, ht =>
    unfold NetTut.GpuTrainStep at ht
    dsimp only at ht
    cases hf0 : (o.flattenFeatures feats).1 with
    | error er => rw [hf0] at ht; exact ht.elim
    | ok f0 =>
      rw [hf0] at ht
      obtain ⟨oE, fE₀, lab, gs, gl, fG, hg, rfl, hl0, hgh, htr, rfl⟩ := ht
      have hloop₀ := gpuTutTrain_forward _ _ _ _ _ _ _ _ _ _ _ _ _ _ _ _ htr
      obtain ⟨s1, s2⟩ := hs o os rfl f0 hf0
      obtain ⟨s3, s4, s5⟩ := s2 oE fE₀ hloop₀
      have hlast := gpuNetTutLoop_last _ _ _ _ _ _ _ _ _ hloop₀
      have hall : ∀ θ, ∃ fE : Fin oE.c.n → ℕ → ℝ, (θ = θ₀ → fE = fE₀) ∧
          (θ ≠ θ₀ → gpuNetTutLoop E Ws (N.at θ) o f0 os (N.levels.map (fun l => l.at θ)) (.ok ⟨oE, fE⟩)) ∧
          loss θ = trainLoss N.C e lab ((N.head θ).runTut E (pooled40 oE fE)) := by
        intro θ
        by_cases hθ : θ = θ₀
        · subst hθ
          exact ⟨fE₀, fun _ => rfl, fun h => absurd rfl h, hl0⟩
        · obtain ⟨logits, q1, q2, q3⟩ := hrun θ hθ
          unfold NetTut.GpuLogits at q1
          dsimp only at q1
          rw [hf0] at q1
          obtain ⟨r, q4, q5⟩ := q1
          match r, q4, q5 with
          | .ok ⟨oE', fE⟩, q4, q5 =>
            obtain rfl : oE' = oE := (gpuNetTutLoop_last _ _ _ _ _ _ _ _ _ q4).trans hlast.symm
            have q6 := Except.ok.inj q5
            refine ⟨fE, fun h => absurd h hθ, fun _ => q4, ?_⟩
            rw [q3, q6]
            rfl
      choose fE h0 hloop hloss using hall
      have e0 : fE θ₀ = fE₀ := h0 θ₀ rfl
      subst e0
      obtain ⟨u1, n1, p1⟩ := C168_levels_partial hk E a hE hT hL hW θ₀ N hN.radius N.levels os o ci hN.levels hc
        (fun _ => f0) (fun _ _ => 0) (fun _ _ _ => hasDerivAt_const _ _) s1 oE fE hloop _ gs gl fG htr
      have hmem : oE ∈ o :: os := by rw [hlast]; exact List.getLast_mem _
      obtain ⟨u2, n2, p2⟩ := pooled_node θ₀ N.cl oE (hc oE hmem).valid fE u1 n1
      have hlab' : ∀ b, lab b < N.C := fun b => hlab _ (by rw [List.mem_ofFn]; exact ⟨b, rfl⟩)
      obtain ⟨u3, n3, p3⟩ := head_tut E hT hL θ₀ N.cl N.c1 N.C N.head N.head' hN.head _ u2 n2 s3 s4
      have hd := C159_loss_partial N.C e he he' lab hlab' θ₀ _ u3 n3 s5
      have hgh' : hg = (N.head θ₀).backTut N.c1 N.C (pooled40 oE (fE θ₀)) (trainLossGrad N.C e lab
        ((N.head θ₀).runTut E (pooled40 oE (fE θ₀)))) := hgh
      have e1 : loss = fun θ => trainLoss N.C e lab ((N.head θ).runTut E (pooled40 oE (fE θ))) := funext hloss
      rw [e1]
      refine hd.congr_deriv ?_
      refine (p3 _).trans ?_
      rw [← hgh', p2, p1]
      unfold TutCurve.pairing
      simp only [matPairing, mul_zero, Finset.sum_const_zero]
      ring

/-! ### Runs -/

/-- Every run of the convolutions can be the forward pass of a training step, for every gradient. -/
theorem gpuTutTrain_runs (E : NetEnv) (a : NonLin) {Ws : ℕ} (hW : 0 < Ws) (N : NetTut (k + 2)) (hlr : 0 < N.lastConvRadius) (cl : ℕ)
    (ls : List (LevelTut (k + 2))) : ∀ (_ : ∀ l ∈ ls, 0 < l.convRadius) (cs : List ℕ) (_ : cs.length = ls.length)
      (os : List (CloudObj (Fin (k + 2) → ℝ))) (o : CloudObj (Fin (k + 2) → ℝ)) (_ : ∀ p ∈ o :: os, GpuCloud Ws p.c)
      (f : Fin o.c.n → ℕ → ℝ) (oE : CloudObj (Fin (k + 2) → ℝ)) (fE : Fin oE.c.n → ℕ → ℝ)
      (_ : gpuNetTutLoop E Ws N o f os ls (.ok ⟨oE, fE⟩))
      (G : Fin oE.c.n → ℕ → ℝ), ∃ gs gl fG, gpuTutTrain E a Ws N cl o f os ls cs oE fE G gs gl fG := by
  induction ls with
  | nil =>
    intro _ cs hcs os o hc f oE fE h G
    obtain rfl : cs = [] := List.eq_nil_of_length_eq_zero hcs
    match os, hc, h with
    | [], hc, h => unfold gpuNetTutLoop at h; cases h
    | _ :: _ :: _, hc, h => unfold gpuNetTutLoop at h; cases h
    | [o'], hc, h =>
      unfold gpuNetTutLoop at h
      obtain ⟨r, h1, h2⟩ := h
      match r, h1, h2 with
      | .ok r, h1, h2 =>
        cases h2
        obtain ⟨gl, fG, h4⟩ := NetConv.gpuTrain_runs a hW E.eps N.last cl (hc o (by simp)) (hc oE (by simp)) hlr f G
        refine ⟨[], gl, fG, ?_⟩
        unfold gpuTutTrain
        exact ⟨fE, G, h1, rfl, h4, rfl⟩
  | cons l ls ih =>
    intro hl cs hcs os o hc f oE fE h G
    match cs, hcs, os, hc, h with
    | c :: cs, hcs, [], hc, h => unfold gpuNetTutLoop at h; cases h
    | c :: cs, hcs, o' :: os, hc, h =>
      obtain ⟨r, h1, h2⟩ := (gpuNetTutLoop_cons ..).mp h
      match r, h1, h2 with
      | .ok r, h1, h2 =>
        obtain ⟨gs', gl, G', h3⟩ := ih (fun l' hx => hl l' (by simp [hx])) cs (by simpa using hcs) os o'
          (fun p hp => hc p (List.mem_cons_of_mem _ hp)) _ oE fE h2 G
        obtain ⟨gc, fG, h4⟩ := NetConv.gpuTrain_runs a hW E.eps l.conv c (hc o (by simp)) (hc o' (by simp)) (hl l (by simp)) f
          (bnActBack l.bn r G').x
        exact ⟨_, gl, fG, (gpuTutTrain_cons ..).mpr ⟨r, G', gc, gs', _, h1, h3, rfl, h4, rfl⟩⟩

/-- **C168, runs exist**: every run of the network in which all layers return can be the forward pass of a training step. -/
theorem C168_runs (E : NetEnv) (a : NonLin) {Ws : ℕ} (hW : 0 < Ws) (N : NetTut (k + 2))
    (hlr : 0 < N.lastConvRadius) (hl : ∀ l ∈ N.levels, 0 < l.convRadius) (cs : List ℕ) (hcs : cs.length = N.levels.length)
    (cl c1 C : ℕ) (e : ℝ) (clouds : List (CloudObj (Fin (k + 2) → ℝ))) (hc : ∀ p ∈ clouds, GpuCloud Ws p.c)
    (feats : List (List (ℕ → ℝ))) (labels : List ℕ) (loss : ℝ) (h : N.GpuLoss E Ws C e clouds feats labels loss) :
    ∃ g, N.GpuTrainStep E a Ws cs cl c1 C e clouds feats labels loss g := by
  obtain ⟨logits, q1, q2, q3⟩ := h
  match clouds, hc, q1 with
  | [], hc, q1 => cases q1
  | o :: os, hc, q1 =>
    unfold NetTut.GpuLogits at q1
    dsimp only at q1
    unfold NetTut.GpuTrainStep
    dsimp only
    cases hf0 : (o.flattenFeatures feats).1 with
    | error er => rw [hf0] at q1; cases q1
    | ok f0 =>
      rw [hf0] at q1
      obtain ⟨r, q4, q5⟩ := q1
      match r, q4, q5 with
      | .ok ⟨oE, fE⟩, q4, q5 =>
        have q6 := Except.ok.inj q5
        have hn : labels.length = oE.c.B := by rw [q2, q6, List.length_ofFn]
        have hlb : labels = List.ofFn (fun i : Fin oE.c.B => labels.get (Fin.cast hn.symm i)) := by
          refine List.ext_get (by rw [List.length_ofFn, hn]) fun i h1 h2 => ?_
          rw [List.get_ofFn]
          rfl
        obtain ⟨hg, hhg⟩ : ∃ hg, hg = N.head.backTut c1 C (pooled40 oE fE) (trainLossGrad C e
          (fun i : Fin oE.c.B => labels.get (Fin.cast hn.symm i)) (N.head.runTut E (pooled40 oE fE))) := ⟨_, rfl⟩
        obtain ⟨gs, gl, fG, t⟩ := gpuTutTrain_runs E a hW N hlr cl N.levels hl cs hcs os o hc f0 oE fE q4
          (globalPoolGrad .mean oE.c fE (rowsOf hg.bn1.x))
        refine ⟨_, oE, fE, _, gs, gl, fG, hg, hlb, ?_, hhg, t, rfl⟩
        rw [q3, q6]
        unfold trainLoss
        rw [← hlb]
        rfl

end

/-! ### The hypotheses can be met -/

noncomputable def exTutCurve : TutCurve 2 :=
  ⟨[⟨exConvCurve, exBn, exBn', 1, 1, 1⟩], exConvCurve, 1, 1,
    fun θ => ⟨exBn θ, ⟨1, fun _ _ => 1 + θ, fun _ => θ⟩, exBn θ, ⟨1, fun _ o => if o = 0 then θ else 0, fun _ => 0⟩⟩,
    ⟨exBn', ⟨1, fun _ _ => 1, fun _ => 1⟩, exBn', ⟨1, fun _ o => if o = 0 then 1 else 0, fun _ => 0⟩⟩, 1, 1, 2⟩

theorem exTutCurve_moves : exTutCurve.Moves 0 1 := by
  have hid : HasDerivAt (fun θ : ℝ => θ) 1 0 := hasDerivAt_id 0
  refine ⟨⟨one_pos, exConvCurve_moves, exBn_moves _, exConvCurve_moves⟩, one_pos, exBn_moves _,
    ⟨fun _ => rfl, fun _ _ _ _ => hid.const_add 1, fun _ _ => hid⟩, exBn_moves _,
    fun _ => rfl, fun a _ o _ => ?_, fun _ _ => hasDerivAt_const _ _⟩
  by_cases ho : o = 0
  · simp only [exTutCurve, ho, if_true]
    exact hid
  · simp only [exTutCurve, ho, if_false]
    exact hasDerivAt_const _ _

theorem exTutLoss_runs (θ : ℝ) : ∃ loss, (exTutCurve.at θ).GpuLoss (k := 0) exTrainEnv 1 2 (1 / 10 ^ 7) [exO3, exO2, exO2]
    [[fun _ => 1, fun _ => 2], [fun _ => 3, fun _ => 0]] [0, 1] loss := by
  have h2 := exClouds exO2 (by simp)
  have h3 := exClouds exO3 (by simp)
  obtain ⟨f0, e0⟩ : ∃ f0, (exO3.flattenFeatures [[fun _ => (1 : ℝ), fun _ => 2], [fun _ => 3, fun _ => 0]]).1 = .ok (f0 : _ → ℕ → ℝ) := by
    simp [CloudObj.flattenFeatures, CloudObj.getSizes, flattenRows, exO3]
  obtain ⟨r, hr⟩ := exMc_runs θ h3 h2 f0
  obtain ⟨r', hr'⟩ := exMc_runs θ h2 h2 (exTrainEnv.bnAct (exBn θ) r)
  refine ⟨_, List.ofFn ((exTutCurve.at θ).head.runTut exTrainEnv (pooled40 exO2 r')), ?_, ?_, rfl⟩
  · unfold NetTut.GpuLogits
    dsimp only
    rw [e0]
    exact ⟨.ok ⟨exO2, r'⟩, ⟨.ok r, hr, .ok r', hr', rfl⟩, rfl⟩
  · rw [List.length_ofFn]
    rfl

theorem exTutCurve_smooth : exTutCurve.Smooth (k := 0) exTrainEnv .elu 1 0 (1 / 10 ^ 7)
    [exO3, exO2, exO2] [[fun _ => 1, fun _ => 2], [fun _ => 3, fun _ => 0]] := by
  intro o os e f0 hf
  obtain ⟨rfl, rfl⟩ := List.cons.inj e
  refine ⟨⟨exConvCurve_smooth _ _, fun r hr => ⟨fun i ch _ => ?_, exConvCurve_smooth _ _⟩⟩, fun oE fE h => ?_⟩
  · exact bn_large_ne (exBn 0) (n := 2) (by norm_num) r ch rfl rfl one_pos i
  · obtain rfl : oE = exO2 := gpuNetTutLoop_last _ _ _ _ _ _ _ _ _ h
    refine ⟨fun i ch _ => ?_, fun i ch _ => ?_, fun b j hj => ?_⟩
    · exact bn_large_ne (exBn 0) (n := 2) (by norm_num) _ ch rfl rfl one_pos i
    · exact bn_large_ne (exBn 0) (n := 2) (by norm_num) _ ch rfl rfl one_pos i
    · have hsm : ∀ x : ℕ → ℝ, (∀ j < 2, x j = 0) → softmaxRow 2 x j = 1 / 2 := by
        intro x hx
        unfold softmaxRow
        rw [Finset.sum_range_succ, Finset.sum_range_one, hx 0 (by omega), hx 1 (by omega), hx j hj, Real.exp_zero]
        norm_num
      change softmaxRow 2 _ j ≠ _ ∧ softmaxRow 2 _ j ≠ _
      rw [hsm]
      · constructor <;> norm_num
      · intro j hj
        simp only [NetHead.runTut, Lin.apply, conv1x1, exTutCurve, Finset.sum_range_one]
        split <;> simp

example : ∃ loss g, (∀ θ, θ ≠ 0 → (exTutCurve.at θ).GpuLoss (k := 0) exTrainEnv 1 2 (1 / 10 ^ 7) [exO3, exO2, exO2]
      [[fun _ => 1, fun _ => 2], [fun _ => 3, fun _ => 0]] [0, 1] (loss θ)) ∧
    (exTutCurve.at 0).GpuTrainStep (k := 0) exTrainEnv .elu 1 [1] 1 1 2 (1 / 10 ^ 7)
      [exO3, exO2, exO2] [[fun _ => 1, fun _ => 2], [fun _ => 3, fun _ => 0]] [0, 1] (loss 0) g ∧
    HasDerivAt loss (exTutCurve.pairing 0 1 g) 0 := by
  choose loss hl using exTutLoss_runs
  obtain ⟨g, hg⟩ := C168_runs (k := 0) exTrainEnv .elu one_pos (exTutCurve.at 0) one_pos
    (by simp [exTutCurve, TutCurve.at, TutLevelCurve.at]) [1] rfl 1 1 2 _ _ exClouds _ _ _ (hl 0)
  exact ⟨loss, g, fun θ _ => hl θ, hg, C168_tutorial_partial (k := 0) (by omega) exTrainEnv .elu rfl rfl rfl one_pos
    0 exTutCurve 1 exTutCurve_moves _ (by norm_num) (by norm_num) _ exClouds _ _
    (by simp [exTutCurve]) exTutCurve_smooth loss (fun θ _ => hl θ) g hg⟩

end PC
