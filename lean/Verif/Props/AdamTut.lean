import Verif.Props.OptimTut

/-!
# C162: the first update of the tutorial, number by number

A specification of what an update of all variables is, apart from the optimiser: every number
of every variable is replaced by a function `u` of its gradient and its value, everything else
is kept.
-/

namespace PC
variable {D : ℕ} {k : ℕ}

/-- Update of a dense layer. -/
def LinUpd (u : ℝ → ℝ → ℝ) (l : Lin) {n : ℕ} (g : LinGrads n) (l' : Lin) : Prop :=
  l'.cin = l.cin ∧ (∀ a o, l'.w a o = u (g.w a o) (l.w a o)) ∧ ∀ o, l'.b o = u (g.b o) (l.b o)

/-- Update of a batch normalisation: its moments are kept. -/
def BnUpd (u : ℝ → ℝ → ℝ) (bn : BNorm) {n : ℕ} (g : BnGrads n) (bn' : BNorm) : Prop :=
  (∀ ch, bn'.gamma ch = u (g.gamma ch) (bn.gamma ch)) ∧ (∀ ch, bn'.beta ch = u (g.beta ch) (bn.beta ch)) ∧
    bn'.mean = bn.mean ∧ bn'.var = bn.var ∧ bn'.eps = bn.eps

/-- Update of the `i`-th hidden layer of `MCConv`. -/
def MlpUpd (u : ℝ → ℝ → ℝ) (l g l' : MlpLayer ℝ) : Prop :=
  l'.size = l.size ∧ (∀ mi i o, l'.w mi i o = u (g.w mi i o) (l.w mi i o)) ∧ ∀ mi o, l'.b mi o = u (g.b mi o) (l.b mi o)

/-- Update of a convolution; the kernel points of `KPConv` are kept. -/
def ConvUpd (u : ℝ → ℝ → ℝ) : NetConv D → ConvGrads → NetConv D → Prop
  | .mc L, .mc gs gf, .mc L' => L'.cin = L.cin ∧ L'.cout = L.cout ∧ L'.mlps = L.mlps ∧ L'.layers.length = L.layers.length ∧
      gs.length = L.layers.length ∧
      (∀ (i : ℕ) l g l', L.layers[i]? = some l → gs[i]? = some g → L'.layers[i]? = some l' → MlpUpd u l g l') ∧
      ∀ mi t o, L'.final mi t o = u (gf mi t o) (L.final mi t o)
  | .pc L, .pc _ g gw, .pc L' => L'.cin = L.cin ∧ L'.hid = L.hid ∧ (∀ i b, L'.axis i b = u (g.axis i b) (L.axis i b)) ∧
      (∀ b, L'.bias b = u (g.bias b) (L.bias b)) ∧ (∀ t o, L'.weights t o = u (gw t o) (L.weights t o)) ∧
      (∀ i, L'.pw1 i = u (g.pw1 i) (L.pw1 i)) ∧ (∀ i, L'.pb1 i = u (g.pb1 i) (L.pb1 i)) ∧
      (∀ i, L'.pw2 i = u (g.pw2 i) (L.pw2 i)) ∧ L'.pb2 = u g.pb2 L.pb2
  | .kp L, .kp gw, .kp L' => (∀ t o, L'.weights t o = u (gw t o) (L.weights t o)) ∧ { L' with weights := L.weights } = L
  | _, _, _ => False

/-- Update of the network of the tutorial. -/
structure TutUpd (u : ℝ → ℝ → ℝ) (N : NetTut D) (g : TutGrads) (N' : NetTut D) : Prop where
  count : N'.levels.length = N.levels.length
  grads : g.levels.length = N.levels.length
  levels : ∀ (i : ℕ) (l : LevelTut D) (γ : TutLevelGrads) (l' : LevelTut D), N.levels[i]? = some l → g.levels[i]? = some γ → N'.levels[i]? = some l' →
    ConvUpd u l.conv γ.conv l'.conv ∧ BnUpd u l.bn γ.bn l'.bn ∧ l'.sampleRadius = l.sampleRadius ∧ l'.convRadius = l.convRadius
  last : ConvUpd u N.last g.last N'.last
  radii : N'.lastSampleRadius = N.lastSampleRadius ∧ N'.lastConvRadius = N.lastConvRadius
  bn1 : BnUpd u N.head.bn1 g.head.bn1 N'.head.bn1
  dense1 : LinUpd u N.head.dense1 g.head.dense1 N'.head.dense1
  bn2 : BnUpd u N.head.bn2 g.head.bn2 N'.head.bn2
  dense2 : LinUpd u N.head.dense2 g.head.dense2 N'.head.dense2

section
variable {u : ℝ → ℝ → ℝ} {ρ ε lr : ℝ}

theorem Lin.upd (hu : ∀ ms g x, rmsVar ρ ε lr ms g x = u g x) (l A : Lin) {n : ℕ} (g : LinGrads n) : LinUpd u l g (l.rms ρ ε lr A g) :=
  ⟨rfl, fun _ _ => hu _ _ _, fun _ => hu _ _ _⟩

theorem BNorm.upd (hu : ∀ ms g x, rmsVar ρ ε lr ms g x = u g x) (l A : BNorm) {n : ℕ} (g : BnGrads n) : BnUpd u l g (l.rms ρ ε lr A g) :=
  ⟨fun _ => hu _ _ _, fun _ => hu _ _ _, rfl, rfl, rfl⟩

theorem mlpRms_upd (hu : ∀ ms g x, rmsVar ρ ε lr ms g x = u g x) : ∀ (ls gs : List (MlpLayer ℝ)), gs.length = ls.length →
    (mlpRms ρ ε lr ls ls gs).length = ls.length ∧
    ∀ (i : ℕ) l g l', ls[i]? = some l → gs[i]? = some g → (mlpRms ρ ε lr ls ls gs)[i]? = some l' → MlpUpd u l g l'
  | [], [], _ => ⟨rfl, fun i l g l' h => by simp at h⟩
  | [], _ :: _, h => by simp at h
  | _ :: _, [], h => by simp at h
  | l :: ls, g :: gs, h => by
    obtain ⟨h1, h2⟩ := mlpRms_upd hu ls gs (by simpa using h)
    refine ⟨by simp [mlpRms, h1], fun i => ?_⟩
    cases i with
    | zero =>
      intro l₁ g₁ l' e1 e2 e3
      simp only [mlpRms, List.getElem?_cons_zero, Option.some.injEq] at e1 e2 e3
      subst e1 e2 e3
      exact ⟨rfl, fun _ _ _ => hu _ _ _, fun _ _ => hu _ _ _⟩
    | succ i =>
      intro l₁ g₁ l' e1 e2 e3
      simp only [mlpRms, List.getElem?_cons_succ] at e1 e2 e3
      exact h2 i l₁ g₁ l' e1 e2 e3

theorem NetConv.upd (hu : ∀ ms g x, rmsVar ρ ε lr ms g x = u g x) (L : NetConv D) (g : ConvGrads) (hs : ConvShape L g) :
    ConvUpd u L g (L.rms ρ ε lr L g) := by
  cases L <;> cases g <;> simp only [ConvShape] at hs
  · obtain ⟨h1, h2⟩ := mlpRms_upd hu _ _ hs
    exact ⟨rfl, rfl, rfl, h1, hs, h2, fun _ _ _ => hu _ _ _⟩
  · exact ⟨rfl, rfl, fun _ _ => hu _ _ _, fun _ => hu _ _ _, fun _ _ => hu _ _ _, fun _ => hu _ _ _, fun _ => hu _ _ _, fun _ => hu _ _ _, hu _ _ _⟩
  · exact ⟨fun _ _ => hu _ _ _, rfl⟩

theorem tutLevelsRms_upd (hu : ∀ ms g x, rmsVar ρ ε lr ms g x = u g x) : ∀ (ls : List (LevelTut D)) (gs : List TutLevelGrads),
    TutLevelsShape ls gs → gs.length = ls.length ∧ (tutLevelsRms ρ ε lr ls ls gs).length = ls.length ∧
    ∀ (i : ℕ) (l : LevelTut D) (γ : TutLevelGrads) (l' : LevelTut D), ls[i]? = some l → gs[i]? = some γ → (tutLevelsRms ρ ε lr ls ls gs)[i]? = some l' →
      ConvUpd u l.conv γ.conv l'.conv ∧ BnUpd u l.bn γ.bn l'.bn ∧ l'.sampleRadius = l.sampleRadius ∧ l'.convRadius = l.convRadius
  | [], [], _ => ⟨rfl, rfl, fun i l g l' h => by simp at h⟩
  | [], _ :: _, h => by cases h
  | _ :: _, [], h => by cases h
  | l :: ls, g :: gs, h => by
    obtain ⟨hc, hr⟩ := List.forall₂_cons.1 h
    obtain ⟨h0, h1, h2⟩ := tutLevelsRms_upd hu ls gs hr
    refine ⟨by simp [h0], by simp [tutLevelsRms, h1], fun i => ?_⟩
    cases i with
    | zero =>
      intro l₁ g₁ l' e1 e2 e3
      simp only [tutLevelsRms, List.getElem?_cons_zero, Option.some.injEq] at e1 e2 e3
      subst e1 e2 e3
      exact ⟨l.conv.upd hu _ hc, l.bn.upd hu _ _, rfl, rfl⟩
    | succ i =>
      intro l₁ g₁ l' e1 e2 e3
      simp only [tutLevelsRms, List.getElem?_cons_succ] at e1 e2 e3
      exact h2 i l₁ g₁ l' e1 e2 e3
end

/-- **C162, first step of the tutorial, number by number**: the network after the first update is the network in which every
number of every variable has made the first step of `Adam` with its own gradient, and nothing else has changed, whatever
`beta_1`. -/
theorem C162_adam_network {β₁ β₂ ε : ℝ} (h1 : 0 ≤ β₁) (h1' : β₁ < 1) (h2 : 0 ≤ β₂) (h2' : β₂ < 1) (hε : 0 < ε) (lr : ℝ) (E : NetEnv) (a : NonLin)
    {Ws : ℕ} (N : NetTut (k + 2)) (cs : List ℕ) (cl c1 C : ℕ) (e : ℝ) (clouds : List (CloudObj (Fin (k + 2) → ℝ)))
    (feats : List (List (ℕ → ℝ))) (labels : List ℕ) (loss : ℝ) (g : TutGrads)
    (ht : N.GpuTrainStep E a Ws cs cl c1 C e clouds feats labels loss g) :
    TutUpd (fun γ x => (adamRun β₁ β₂ ε (fun _ => lr) (fun _ => γ) x 1).1) N g (N.adamFirst β₂ ε lr g) := by
  obtain ⟨hsh, hsl⟩ := ht.shape
  have hu : ∀ ms γ x : ℝ, rmsVar 0 (ε / √(1 - β₂)) lr ms γ x = (adamRun β₁ β₂ ε (fun _ => lr) (fun _ => γ) x 1).1 :=
    fun ms γ x => (C162_adam_first h1 h1' h2 h2' hε (fun _ => lr) (fun _ => γ) x ms).symm
  obtain ⟨q0, q1, q2⟩ := tutLevelsRms_upd hu _ _ hsh
  exact ⟨q1, q0, q2, N.last.upd hu _ hsl, ⟨rfl, rfl⟩, N.head.bn1.upd hu _ _, N.head.dense1.upd hu _ _, N.head.bn2.upd hu _ _, N.head.dense2.upd hu _ _⟩

/-- A training step that meets the hypotheses exists. -/
example : ∃ loss g, (exTutCurve.at 0).GpuTrainStep (k := 0) exTrainEnv .elu 1 [1] 1 1 2 (1 / 10 ^ 7)
      [exO3, exO2, exO2] [[fun _ => 1, fun _ => 2], [fun _ => 3, fun _ => 0]] [0, 0] loss g ∧
    TutUpd (fun γ x => (adamRun (9 / 10) (999 / 1000) (1 / 10 ^ 7) (fun _ => 1 / 1000) (fun _ => γ) x 1).1) (exTutCurve.at 0) g
      ((exTutCurve.at 0).adamFirst (999 / 1000) (1 / 10 ^ 7) (1 / 1000) g) := by
  obtain ⟨_, logits, q1, q2, _⟩ := exTutLoss_runs 0
  obtain ⟨g, hg⟩ := C168_runs (k := 0) exTrainEnv .elu one_pos (exTutCurve.at 0) one_pos
    (by simp [exTutCurve, TutCurve.at, TutLevelCurve.at]) [1] rfl 1 1 2 _ _ exClouds _ [0, 0] _ ⟨logits, q1, q2, rfl⟩
  exact ⟨_, g, hg, C162_adam_network (k := 0) (by norm_num) (by norm_num) (by norm_num) (by norm_num) (by norm_num) _ _ _ _ _ _ _ _ _ _ _ _ _ g hg⟩

end PC
