import Verif.Props.Optim

/-!
# A training step lowers the loss (C162)
-/

set_option linter.unusedVariables false
set_option linter.unusedSectionVars false

namespace PC

open Filter Topology

/-! ### Lists of the gradients of a network -/

/-- Entries `0, …, n - 1`. -/
def vecNums (n : ℕ) (g : ℕ → ℝ) : List ℝ := (List.range n).flatMap (fun i => [g i])
/-- Entries of a matrix. -/
def matNums (n m : ℕ) (g : ℕ → ℕ → ℝ) : List ℝ := (List.range n).flatMap (fun i => vecNums m (g i))

theorem mem_vecNums {n : ℕ} {g : ℕ → ℝ} {i : ℕ} (h : i < n) : g i ∈ vecNums n g := by
  unfold vecNums
  rw [List.mem_flatMap]
  exact ⟨i, List.mem_range.mpr h, by simp⟩

/-- Gradients of a linear layer. -/
def linNums (ci co : ℕ) {n : ℕ} (g : LinGrads n) : List ℝ := matNums ci co g.w ++ vecNums co g.b
/-- Gradients of a normalisation. -/
def bnNums (c : ℕ) {n : ℕ} (g : BnGrads n) : List ℝ := (List.range c).flatMap (fun ch => [g.gamma ch] ++ [g.beta ch])
/-- Gradients of a head. -/
def headNums (c0 c1 C : ℕ) {n : ℕ} (g : HeadGrads n) : List ℝ :=
  bnNums c0 g.bn1 ++ linNums c0 c1 g.dense1 ++ bnNums c1 g.bn2 ++ linNums c1 C g.dense2
/-- Gradients of the hidden layers of `ml` kernel networks with the sizes of the layers. -/
def mlpNums (ml : ℕ) : ℕ → List (MlpLayer ℝ) → List (MlpLayer ℝ) → List ℝ
  | prev, l :: ls, g :: gs => (List.range ml).flatMap (fun mi => matNums prev l.size (g.w mi) ++ vecNums l.size (g.b mi)) ++
      mlpNums ml l.size ls gs
  | _, _, _ => []
/-- Gradients of a convolution with `ci` input and `co` output channels. -/
def NetConv.nums {D : ℕ} (ci co : ℕ) : NetConv D → ConvGrads → List ℝ
  | .mc L, .mc lG wG => mlpNums L.mlps D L.layers lG ++
      (List.range L.mlps).flatMap (fun mi => matNums (ci * L.hid) (co / L.mlps) (wG mi))
  | .pc L, .pc _ g wG => matNums D L.hid g.axis ++ vecNums L.hid g.bias ++
      (List.range 16).flatMap (fun i => [g.pw1 i] ++ [g.pb1 i] ++ [g.pw2 i]) ++ [g.pb2] ++ matNums (ci * L.hid) co wG
  | .kp L, .kp wG => matNums (ci * L.nk) co wG
  | _, _ => []

section
variable {ρ ε : ℝ}

theorem Down.vec (h0 : 0 ≤ ρ) (h1 : ρ ≤ 1) (hε : 0 < ε) (n : ℕ) (ms g : ℕ → ℝ) :
    Down (∑ i ∈ Finset.range n, g i * -rmsDir ρ ε (ms i) (g i)) (vecNums n g) :=
  Down.sum n _ _ fun i _ => Down.one h0 h1 hε _

theorem Down.mat (h0 : 0 ≤ ρ) (h1 : ρ ≤ 1) (hε : 0 < ε) (n m : ℕ) (ms g : ℕ → ℕ → ℝ) :
    Down (∑ i ∈ Finset.range n, ∑ o ∈ Finset.range m, g i o * -rmsDir ρ ε (ms i o) (g i o)) (matNums n m g) :=
  Down.sum n _ _ fun i _ => Down.vec h0 h1 hε m _ _

/-! ### Linear layers, normalisations, heads -/

/-- Velocities of the update with respect to the learning rate. -/
noncomputable def Lin.rmsVel (ρ ε : ℝ) (l A : Lin) {n : ℕ} (g : LinGrads n) : Lin :=
  ⟨l.cin, fun a o => -rmsDir ρ ε (A.w a o) (g.w a o), fun o => -rmsDir ρ ε (A.b o) (g.b o)⟩
/-- Velocities of the update with respect to the learning rate. -/
noncomputable def BNorm.rmsVel (ρ ε : ℝ) (bn A : BNorm) {n : ℕ} (g : BnGrads n) : BNorm :=
  ⟨fun ch => -rmsDir ρ ε (A.gamma ch) (g.gamma ch), fun ch => -rmsDir ρ ε (A.beta ch) (g.beta ch), bn.mean, bn.var, bn.eps⟩
/-- Velocities of the update with respect to the learning rate. -/
noncomputable def NetHead.rmsVel (ρ ε : ℝ) (h A : NetHead) {n : ℕ} (g : HeadGrads n) : NetHead :=
  ⟨h.bn1.rmsVel ρ ε A.bn1 g.bn1, h.dense1.rmsVel ρ ε A.dense1 g.dense1, h.bn2.rmsVel ρ ε A.bn2 g.bn2,
    h.dense2.rmsVel ρ ε A.dense2 g.dense2⟩

theorem Lin.rms_zero (l A : Lin) {n : ℕ} (g : LinGrads n) : l.rms ρ ε 0 A g = l := by
  simp only [Lin.rms, rmsVar_zero]

theorem BNorm.rms_zero (bn A : BNorm) {n : ℕ} (g : BnGrads n) : bn.rms ρ ε 0 A g = bn := by
  simp only [BNorm.rms, rmsVar_zero]

theorem NetHead.rms_zero (h A : NetHead) {n : ℕ} (g : HeadGrads n) : h.rms ρ ε 0 A g = h := by
  simp only [NetHead.rms, BNorm.rms_zero, Lin.rms_zero]

theorem Lin.rms_moves (l A : Lin) {n : ℕ} (g : LinGrads n) {ci : ℕ} (co : ℕ) (h : l.cin = ci) :
    LinMoves 0 ci co (fun η => l.rms ρ ε η A g) (l.rmsVel ρ ε A g) :=
  ⟨fun _ => h, fun a _ o _ => rmsVar_deriv _ _ _ _ _, fun o _ => rmsVar_deriv _ _ _ _ _⟩

theorem BNorm.rms_moves (bn A : BNorm) {n : ℕ} (g : BnGrads n) (c : ℕ) (h : 0 < bn.eps) :
    BnMoves 0 c (fun η => bn.rms ρ ε η A g) (bn.rmsVel ρ ε A g) :=
  ⟨fun _ => rfl, h, fun a _ => rmsVar_deriv _ _ _ _ _, fun o _ => rmsVar_deriv _ _ _ _ _⟩

/-- Sizes of a head. -/
def NetHead.RmsFits (c0 c1 : ℕ) (h : NetHead) : Prop := 0 < h.bn1.eps ∧ h.dense1.cin = c0 ∧ 0 < h.bn2.eps ∧ h.dense2.cin = c1

theorem NetHead.rms_moves (h A : NetHead) {n : ℕ} (g : HeadGrads n) {c0 c1 : ℕ} (C : ℕ) (hh : h.RmsFits c0 c1) :
    HeadMoves 0 c0 c1 C (fun η => h.rms ρ ε η A g) (h.rmsVel ρ ε A g) :=
  ⟨h.bn1.rms_moves _ _ _ hh.1, h.dense1.rms_moves _ _ _ hh.2.1, h.bn2.rms_moves _ _ _ hh.2.2.1, h.dense2.rms_moves _ _ _ hh.2.2.2⟩

theorem Lin.rms_down (h0 : 0 ≤ ρ) (h1 : ρ ≤ 1) (hε : 0 < ε) (l A : Lin) {n : ℕ} (g : LinGrads n) (ci co : ℕ) :
    Down (linPairing ci co g (l.rmsVel ρ ε A g)) (linNums ci co g) :=
  (Down.mat h0 h1 hε ci co A.w g.w).add (Down.vec h0 h1 hε co A.b g.b)

theorem BNorm.rms_down (h0 : 0 ≤ ρ) (h1 : ρ ≤ 1) (hε : 0 < ε) (bn A : BNorm) {n : ℕ} (g : BnGrads n) (c : ℕ) :
    Down (bnPairing c g (bn.rmsVel ρ ε A g)) (bnNums c g) :=
  Down.sum c _ _ fun i _ => (Down.one h0 h1 hε _).add (Down.one h0 h1 hε _)

theorem NetHead.rms_down (h0 : 0 ≤ ρ) (h1 : ρ ≤ 1) (hε : 0 < ε) (h A : NetHead) {n : ℕ} (g : HeadGrads n) (c0 c1 C : ℕ) :
    Down (headPairing c0 c1 C g (h.rmsVel ρ ε A g)) (headNums c0 c1 C g) :=
  (((h.bn1.rms_down h0 h1 hε _ _ _).add (h.dense1.rms_down h0 h1 hε _ _ _ _)).add (h.bn2.rms_down h0 h1 hε _ _ _)).add
    (h.dense2.rms_down h0 h1 hε _ _ _ _)

/-! ### Convolutions -/

/-- The hidden layers as functions of the learning rate. -/
noncomputable def mlpLine (ρ ε : ℝ) : List (MlpLayer ℝ) → List (MlpLayer ℝ) → List (MlpLayer ℝ) → List MlpCurve
  | l :: ls, A :: As, g :: gs => ⟨l.size, fun η mi i o => rmsVar ρ ε η (A.w mi i o) (g.w mi i o) (l.w mi i o),
      fun η mi o => rmsVar ρ ε η (A.b mi o) (g.b mi o) (l.b mi o), fun mi i o => -rmsDir ρ ε (A.w mi i o) (g.w mi i o),
      fun mi o => -rmsDir ρ ε (A.b mi o) (g.b mi o)⟩ :: mlpLine ρ ε ls As gs
  | _, _, _ => []

theorem mlpLine_at (η : ℝ) : ∀ (ls As gs : List (MlpLayer ℝ)), As.length = ls.length → gs.length = ls.length →
    (mlpLine ρ ε ls As gs).map (fun c => c.at η) = mlpRms ρ ε η ls As gs
  | [], [], [], _, _ => rfl
  | l :: ls, A :: As, g :: gs, h1, h2 => by
    simp only [List.length_cons, Nat.add_right_cancel_iff] at h1 h2
    simp only [mlpLine, mlpRms, List.map_cons, mlpLine_at η ls As gs h1 h2]
    rfl

theorem mlpRms_zero : ∀ (ls As gs : List (MlpLayer ℝ)), mlpRms ρ ε 0 ls As gs = ls
  | [], _, _ => by unfold mlpRms; rfl
  | _ :: _, [], _ => by unfold mlpRms; rfl
  | _ :: _, _ :: _, [] => by unfold mlpRms; rfl
  | l :: ls, A :: As, g :: gs => by
    simp only [mlpRms, rmsVar_zero, mlpRms_zero ls As gs]

theorem mlpLine_moves (ml : ℕ) : ∀ (ls As gs : List (MlpLayer ℝ)) (prev : ℕ), MlpMoves 0 ml prev (mlpLine ρ ε ls As gs)
  | [], _, _, _ => by unfold mlpLine; trivial
  | _ :: _, [], _, _ => by unfold mlpLine; trivial
  | _ :: _, _ :: _, [], _ => by unfold mlpLine; trivial
  | l :: ls, A :: As, g :: gs, prev =>
    ⟨fun _ _ _ _ _ _ => rmsVar_deriv _ _ _ _ _, fun _ _ _ _ => rmsVar_deriv _ _ _ _ _, mlpLine_moves ml ls As gs l.size⟩

theorem mlpLine_down (h0 : 0 ≤ ρ) (h1 : ρ ≤ 1) (hε : 0 < ε) (ml : ℕ) : ∀ (ls As gs : List (MlpLayer ℝ)) (prev : ℕ),
    As.length = ls.length → Down (mlpPairing ml prev (mlpLine ρ ε ls As gs) gs) (mlpNums ml prev ls gs)
  | [], [], gs, _, _ => by
    cases gs <;> exact Down.zero
  | _ :: _, _ :: _, [], _, _ => Down.zero
  | l :: ls, A :: As, g :: gs, prev, h => by
    simp only [List.length_cons, Nat.add_right_cancel_iff] at h
    exact (Down.sum ml _ _ fun mi _ => (Down.mat h0 h1 hε prev l.size (A.w mi) (g.w mi)).add
      (Down.vec h0 h1 hε l.size (A.b mi) (g.b mi))).add (mlpLine_down h0 h1 hε ml ls As gs l.size h)

theorem mlpLine_out : ∀ (ls As gs : List (MlpLayer ℝ)) (prev : ℕ), As.length = ls.length → gs.length = ls.length →
    curveOut prev (mlpLine ρ ε ls As gs) = ((ls.getLast?.map MlpLayer.size).getD prev)
  | [], [], [], _, _, _ => rfl
  | [l], [A], [g], prev, _, _ => rfl
  | l :: l' :: ls, A :: A' :: As, g :: g' :: gs, prev, h1, h2 => by
    have := mlpLine_out (l' :: ls) (A' :: As) (g' :: gs) l.size (by simpa using h1) (by simpa using h2)
    rw [mlpLine, curveOut, this, List.getLast?_cons_cons]
    obtain ⟨x, hx⟩ := Option.ne_none_iff_exists'.mp (mt List.getLast?_eq_none_iff.mp (List.cons_ne_nil l' ls))
    rw [hx]
    rfl

/-- The convolution as a function of the learning rate. -/
noncomputable def NetConv.line (ρ ε : ℝ) {D : ℕ} : NetConv D → NetConv D → ConvGrads → ConvCurve D
  | .mc L, .mc A, .mc lG wG => .mc L.cin L.cout L.mlps (mlpLine ρ ε L.layers A.layers lG)
      (fun η mi t o => rmsVar ρ ε η (A.final mi t o) (wG mi t o) (L.final mi t o)) (fun mi t o => -rmsDir ρ ε (A.final mi t o) (wG mi t o))
  | .pc L, .pc A, .pc _ g w => .pc (fun η => ⟨L.cin, L.hid, fun i b => rmsVar ρ ε η (A.axis i b) (g.axis i b) (L.axis i b),
      fun b => rmsVar ρ ε η (A.bias b) (g.bias b) (L.bias b), fun t o => rmsVar ρ ε η (A.weights t o) (w t o) (L.weights t o),
      fun i => rmsVar ρ ε η (A.pw1 i) (g.pw1 i) (L.pw1 i), fun i => rmsVar ρ ε η (A.pb1 i) (g.pb1 i) (L.pb1 i),
      fun i => rmsVar ρ ε η (A.pw2 i) (g.pw2 i) (L.pw2 i), rmsVar ρ ε η A.pb2 g.pb2 L.pb2⟩)
      ⟨L.cin, L.hid, fun i b => -rmsDir ρ ε (A.axis i b) (g.axis i b), fun b => -rmsDir ρ ε (A.bias b) (g.bias b),
        fun t o => -rmsDir ρ ε (A.weights t o) (w t o), fun i => -rmsDir ρ ε (A.pw1 i) (g.pw1 i), fun i => -rmsDir ρ ε (A.pb1 i) (g.pb1 i),
        fun i => -rmsDir ρ ε (A.pw2 i) (g.pw2 i), -rmsDir ρ ε A.pb2 g.pb2⟩
  | .kp L, .kp A, .kp w => .kp (fun η => { L with weights := fun t o => rmsVar ρ ε η (A.weights t o) (w t o) (L.weights t o) })
      (fun t o => -rmsDir ρ ε (A.weights t o) (w t o))
  | .mc L, _, _ => .mc L.cin L.cout L.mlps [] (fun _ => L.final) 0
  | .pc L, _, _ => .pc (fun _ => L) L
  | .kp L, _, _ => .kp (fun _ => L) 0

/-- Sizes of a convolution with `ci` input and `co` output channels and of its accumulators. -/
def NetConv.RmsFits {D : ℕ} (ci co : ℕ) : NetConv D → NetConv D → Prop
  | .mc L, .mc A => L.cin = ci ∧ L.cout = co ∧ L.mlps ≠ 0 ∧ L.mlps ∣ co ∧ L.layers ≠ [] ∧ A.layers.length = L.layers.length ∧
      opBasisOk (L.mlps * L.hid) = true ∧ opFeaturesOk ci = true
  | .pc L, .pc A => L.cin = ci ∧ opBasisOk L.hid = true ∧ opFeaturesOk ci = true
  | .kp L, .kp A => L.cin = ci ∧ L.nkp = L.nk ∧ L.offs = none ∧ 0 < L.nk ∧ L.nk ≤ 64 ∧ opFeaturesOk ci = true
  | _, _ => False

/-- The gradients are those of a convolution like `L`. -/
def ConvShape {D : ℕ} : NetConv D → ConvGrads → Prop
  | .mc L, .mc lG _ => lG.length = L.layers.length
  | .pc _, .pc _ _ _ => True
  | .kp _, .kp _ => True
  | _, _ => False

theorem mlpGrad_length (a : NonLin) {P : ℕ} : ∀ (ls : List (MlpLayer ℝ)) (prev : ℕ) (x G : ℕ → Fin P → ℕ → ℝ),
    (mlpGrad a prev ls x G).1.length = ls.length
  | [], _, _, _ => rfl
  | l :: ls, prev, x, G => by
    simp only [mlpGrad, List.length_cons]
    rw [mlpGrad_length a ls]

theorem NetConv.GpuTrain.shape {k : ℕ} {a : NonLin} {Ws : ℕ} {eps : ℝ} {L : NetConv (k + 2)} {co : ℕ}
    {cin cout : Cloud (Fin (k + 2) → ℝ)} {radius : ℝ} {f : Fin cin.n → ℕ → ℝ} {G : Fin cout.n → ℕ → ℝ} {g : ConvGrads}
    {fG : Fin cin.n → ℕ → ℝ} (h : L.GpuTrain a Ws eps co cin cout radius f G g fG) : ConvShape L g := by
  match L, h with
  | .mc L, h =>
    obtain ⟨ids, mG, xG, wG, _, rfl⟩ := h
    exact mlpGrad_length a _ _ _ _
  | .pc L, h =>
    obtain ⟨ids, net, xG, yG, wG, _, rfl⟩ := h
    trivial
  | .kp L, h =>
    obtain ⟨ids, bG, wG, _, rfl⟩ := h
    trivial

variable {D : ℕ}

theorem NetConv.line_at (η : ℝ) {ci co : ℕ} (L A : NetConv D) (g : ConvGrads) (hf : L.RmsFits ci co A) (hg : ConvShape L g) :
    (L.line ρ ε A g).at η = L.rms ρ ε η A g := by
  match L, A, g, hf, hg with
  | .mc L, .mc A, .mc lG wG, hf, hg =>
    simp only [NetConv.line, ConvCurve.at, NetConv.rms, mlpLine_at η _ _ _ hf.2.2.2.2.2.1 hg]
  | .pc L, .pc A, .pc _ g w, hf, hg => rfl
  | .kp L, .kp A, .kp w, hf, hg => rfl

theorem NetConv.rms_zero (L A : NetConv D) (g : ConvGrads) : L.rms ρ ε 0 A g = L := by
  unfold NetConv.rms
  split
  · simp only [mlpRms_zero, rmsVar_zero]
  · simp only [rmsVar_zero]
  · simp only [rmsVar_zero]
  · rfl

theorem NetConv.line_moves {ci co : ℕ} (L A : NetConv D) (g : ConvGrads) (hf : L.RmsFits ci co A) (hg : ConvShape L g) :
    (L.line ρ ε A g).Moves 0 ci co := by
  match L, A, g, hf, hg with
  | .mc L, .mc A, .mc lG wG, ⟨h1, h2, h3, h4, h5, h6, h7, h8⟩, hg =>
    have ho : curveOut D (mlpLine ρ ε L.layers A.layers lG) = L.hid := by
      rw [mlpLine_out _ _ _ _ h6 hg, MCLayer.hid]
      obtain ⟨x, hx⟩ := Option.ne_none_iff_exists'.mp (mt List.getLast?_eq_none_iff.mp h5)
      rw [hx]
      rfl
    refine ⟨h1, h2, h3, h4, ?_, by rw [ho]; exact h7, h8, mlpLine_moves _ _ _ _ _, fun _ _ _ _ _ _ => rmsVar_deriv _ _ _ _ _⟩
    intro e
    have := mlpLine_at (ρ := ρ) (ε := ε) 0 L.layers A.layers lG h6 hg
    rw [e, mlpRms_zero] at this
    exact h5 this.symm
  | .pc L, .pc A, .pc _ g w, ⟨h1, h2, h3⟩, hg =>
    exact ⟨fun _ => ⟨h1, rfl⟩, h2, h3, ⟨fun _ _ _ _ => rmsVar_deriv _ _ _ _ _, fun _ _ => rmsVar_deriv _ _ _ _ _,
      fun _ _ => ⟨rmsVar_deriv _ _ _ _ _, rmsVar_deriv _ _ _ _ _, rmsVar_deriv _ _ _ _ _⟩, rmsVar_deriv _ _ _ _ _⟩,
      fun _ _ _ _ => rmsVar_deriv _ _ _ _ _⟩
  | .kp L, .kp A, .kp w, ⟨h1, h2, h3, h4, h5, h6⟩, hg =>
    exact ⟨fun _ => ⟨h1, rfl, h2, h3, rfl, rfl⟩, h4, h5, h6, fun _ _ _ _ => rmsVar_deriv _ _ _ _ _⟩

theorem NetConv.line_down (h0 : 0 ≤ ρ) (h1 : ρ ≤ 1) (hε : 0 < ε) {ci co : ℕ} (L A : NetConv D) (g : ConvGrads) (hf : L.RmsFits ci co A)
    (hg : ConvShape L g) : Down ((L.line ρ ε A g).pairing 0 ci co g) (L.nums ci co g) := by
  match L, A, g, hf, hg with
  | .mc L, .mc A, .mc lG wG, ⟨a1, a2, a3, a4, a5, a6, a7, a8⟩, hg =>
    have ho : curveOut D (mlpLine ρ ε L.layers A.layers lG) = L.hid := by
      rw [mlpLine_out _ _ _ _ a6 hg, MCLayer.hid]
      obtain ⟨x, hx⟩ := Option.ne_none_iff_exists'.mp (mt List.getLast?_eq_none_iff.mp a5)
      rw [hx]
      rfl
    unfold NetConv.line ConvCurve.pairing NetConv.nums
    dsimp only
    rw [ho]
    exact (mlpLine_down h0 h1 hε _ _ _ _ _ a6).add (Down.sum _ _ _ fun mi _ => Down.mat h0 h1 hε _ _ (A.final mi) (wG mi))
  | .pc L, .pc A, .pc _ g w, hf, hg =>
    exact ((((Down.mat h0 h1 hε _ _ A.axis g.axis).add (Down.vec h0 h1 hε _ A.bias g.bias)).add
      (Down.sum 16 _ _ fun i _ => ((Down.one h0 h1 hε _).add (Down.one h0 h1 hε _)).add (Down.one h0 h1 hε _))).add
      (Down.one h0 h1 hε _)).add (Down.mat h0 h1 hε _ _ A.weights w)
  | .kp L, .kp A, .kp w, hf, hg => exact Down.mat h0 h1 hε _ _ A.weights w


/-! ### The small network -/

/-- A level as a function of the learning rate; `c` are its numbers of channels. -/
noncomputable def LevelSmall.line (ρ ε : ℝ) (l A : LevelSmall D) (g : LevelGrads) (c : ℕ × ℕ) : LevelCurve D where
  conv := l.conv.line ρ ε A.conv g.conv
  bn1 := fun η => l.bn1.rms ρ ε η A.bn1 g.bn1
  bn1' := l.bn1.rmsVel ρ ε A.bn1 g.bn1
  lin := fun η => l.lin.rms ρ ε η A.lin g.lin
  lin' := l.lin.rmsVel ρ ε A.lin g.lin
  bn2 := fun η => l.bn2.rms ρ ε η A.bn2 g.bn2
  bn2' := l.bn2.rmsVel ρ ε A.bn2 g.bn2
  sampleRadius := l.sampleRadius
  convRadius := l.convRadius
  c1 := c.1
  c2 := c.2

/-- All levels. -/
noncomputable def levelsLine (ρ ε : ℝ) : List (LevelSmall D) → List (LevelSmall D) → List LevelGrads → List (ℕ × ℕ) → List (LevelCurve D)
  | l :: ls, A :: As, g :: gs, c :: cs => l.line ρ ε A g c :: levelsLine ρ ε ls As gs cs
  | _, _, _, _ => []

/-- The small network as a function of the learning rate of one update. -/
noncomputable def NetSmall.line (ρ ε : ℝ) (N A : NetSmall D) (g : SmallGrads) (cs : List (ℕ × ℕ)) (cl c1 C : ℕ) : SmallCurve D where
  levels := levelsLine ρ ε N.levels A.levels g.levels cs
  last := N.last.line ρ ε A.last g.last
  lastSampleRadius := N.lastSampleRadius
  lastConvRadius := N.lastConvRadius
  head := fun η => N.head.rms ρ ε η A.head g.head
  head' := N.head.rmsVel ρ ε A.head g.head
  cl := cl
  c1 := c1
  C := C

/-- Sizes of the levels and of the last convolution and of their accumulators, starting with `ci` channels. -/
def levelsRmsFit (last lastA : NetConv D) (cl : ℕ) : ℕ → List (LevelSmall D) → List (LevelSmall D) → List (ℕ × ℕ) → Prop
  | ci, [], [], [] => last.RmsFits ci cl lastA
  | ci, l :: ls, A :: As, c :: cs => (0 < l.convRadius ∧ l.conv.RmsFits ci c.1 A.conv ∧ 0 < l.bn1.eps ∧ l.lin.cin = c.1 ∧ 0 < l.bn2.eps) ∧
      levelsRmsFit last lastA cl c.2 ls As cs
  | _, _, _, _ => False

/-- Sizes of the small network and of its accumulators: `ci` features per point, `cs` channels of the levels, `cl` after the
last convolution, `c1` between the dense layers. -/
structure NetSmall.RmsFits (ci : ℕ) (N A : NetSmall D) (cs : List (ℕ × ℕ)) (cl c1 : ℕ) : Prop where
  levels : levelsRmsFit N.last A.last cl ci N.levels A.levels cs
  radius : 0 < N.lastConvRadius
  head : N.head.RmsFits cl c1

/-- Gradients of the levels and of the last convolution. -/
def levelsNums (last : NetConv D) (cl : ℕ) : ℕ → List (LevelSmall D) → List (ℕ × ℕ) → List LevelGrads → ConvGrads → List ℝ
  | ci, l :: ls, c :: cs, g :: gs, gl => l.conv.nums ci c.1 g.conv ++ bnNums c.1 g.bn1 ++ linNums c.1 c.2 g.lin ++ bnNums c.2 g.bn2 ++
      levelsNums last cl c.2 ls cs gs gl
  | ci, _, _, _, gl => last.nums ci cl gl

/-- All gradients of the small network. -/
def NetSmall.nums (ci : ℕ) (N : NetSmall D) (cs : List (ℕ × ℕ)) (cl c1 C : ℕ) (g : SmallGrads) : List ℝ :=
  levelsNums N.last cl ci N.levels cs g.levels g.last ++ headNums cl c1 C g.head

/-- The gradients of the levels are those of levels like `ls`. -/
def LevelsShape (ls : List (LevelSmall D)) (gs : List LevelGrads) : Prop := List.Forall₂ (fun l g => ConvShape l.conv g.conv) ls gs

theorem levelsLine_spec (h0 : 0 ≤ ρ) (h1 : ρ ≤ 1) (hε : 0 < ε) (last lastA : NetConv D) (cl : ℕ) (gl : ConvGrads) (hl : ConvShape last gl) :
    ∀ (ls As : List (LevelSmall D)) (cs : List (ℕ × ℕ)) (gs : List LevelGrads) (ci : ℕ), levelsRmsFit last lastA cl ci ls As cs →
      LevelsShape ls gs →
      (∀ η, (levelsLine ρ ε ls As gs cs).map (fun l => l.at η) = levelsRms ρ ε η ls As gs) ∧
      (levelsLine ρ ε ls As gs cs).map (fun l => (l.c1, l.c2)) = cs ∧
      levelsMove 0 (last.line ρ ε lastA gl) cl ci (levelsLine ρ ε ls As gs cs) ∧
      Down (levelsPairing 0 (last.line ρ ε lastA gl) cl ci (levelsLine ρ ε ls As gs cs) gs gl) (levelsNums last cl ci ls cs gs gl)
  | [], [], [], _, ci, hf, .nil => ⟨fun _ => rfl, rfl, last.line_moves _ _ hf hl, last.line_down h0 h1 hε _ _ hf hl⟩
  | l :: ls, A :: As, c :: cs, _, ci, ⟨⟨f1, f2, f3, f4, f5⟩, hf⟩, .cons (b := g) (l₂ := gs) hg hgs => by
    obtain ⟨i1, i2, i3, i4⟩ := levelsLine_spec h0 h1 hε last lastA cl gl hl ls As cs gs c.2 hf hgs
    refine ⟨fun η => ?_, ?_, ⟨f1, l.conv.line_moves _ _ f2 hg, l.bn1.rms_moves _ _ _ f3, l.lin.rms_moves _ _ _ f4,
      l.bn2.rms_moves _ _ _ f5, i3⟩, ?_⟩
    · simp only [levelsLine, levelsRms, List.map_cons, i1]
      congr 1
      simp only [LevelCurve.at, LevelSmall.line, LevelSmall.rms, l.conv.line_at η _ _ f2 hg]
    · simp only [levelsLine, List.map_cons, i2]
      rfl
    · exact ((((l.conv.line_down h0 h1 hε _ _ f2 hg).add (l.bn1.rms_down h0 h1 hε _ _ _)).add (l.lin.rms_down h0 h1 hε _ _ _ _)).add
        (l.bn2.rms_down h0 h1 hε _ _ _)).add i4

theorem NetSmall.line_at (h0 : 0 ≤ ρ) (h1 : ρ ≤ 1) (hε : 0 < ε) {ci : ℕ} (N A : NetSmall D) (g : SmallGrads) (cs : List (ℕ × ℕ))
    (cl c1 C : ℕ) (hf : N.RmsFits ci A cs cl c1) (hs : LevelsShape N.levels g.levels) (hl : ConvShape N.last g.last) (η : ℝ) :
    (N.line ρ ε A g cs cl c1 C).at η = N.rms ρ ε η A g := by
  obtain ⟨i1, _⟩ := levelsLine_spec h0 h1 hε N.last A.last cl g.last hl _ _ _ _ ci hf.levels hs
  have hlast : (N.last.line ρ ε A.last g.last).at η = N.last.rms ρ ε η A.last g.last := by
    have : ∃ ci', N.last.RmsFits ci' cl A.last := by
      have : ∀ (ls As : List (LevelSmall D)) (cs : List (ℕ × ℕ)) (ci : ℕ), levelsRmsFit N.last A.last cl ci ls As cs →
          ∃ ci', N.last.RmsFits ci' cl A.last := by
        intro ls
        induction ls with
        | nil =>
          intro As cs ci h
          match As, cs, h with
          | [], [], h => exact ⟨ci, h⟩
        | cons l ls ih =>
          intro As cs ci h
          match As, cs, h with
          | A' :: As, c :: cs, h => exact ih As cs c.2 h.2
      exact this _ _ _ _ hf.levels
    obtain ⟨ci', h⟩ := this
    exact N.last.line_at η _ _ h hl
  simp only [SmallCurve.at, NetSmall.line, NetSmall.rms, i1, hlast]

theorem levelsRms_zero : ∀ (ls As : List (LevelSmall D)) (gs : List LevelGrads), levelsRms ρ ε 0 ls As gs = ls
  | [], _, _ => by unfold levelsRms; rfl
  | _ :: _, [], _ => by unfold levelsRms; rfl
  | _ :: _, _ :: _, [] => by unfold levelsRms; rfl
  | l :: ls, A :: As, g :: gs => by
    simp only [levelsRms, levelsRms_zero ls As gs, LevelSmall.rms, NetConv.rms_zero, BNorm.rms_zero, Lin.rms_zero]

theorem NetSmall.rms_zero (N A : NetSmall D) (g : SmallGrads) : N.rms ρ ε 0 A g = N := by
  simp only [NetSmall.rms, levelsRms_zero, NetConv.rms_zero, NetHead.rms_zero]

theorem gpuSmallTrain_shape {k : ℕ} (E : NetEnv) (a : NonLin) (Ws : ℕ) (N : NetSmall (k + 2)) (cl : ℕ) (ls : List (LevelSmall (k + 2))) :
    ∀ (o : CloudObj (Fin (k + 2) → ℝ)) (f : Fin o.c.n → ℕ → ℝ) (os : List (CloudObj (Fin (k + 2) → ℝ))) (cs : List (ℕ × ℕ)) (n : ℕ)
      (out G : Fin n → ℕ → ℝ) (gs : List LevelGrads) (gl : ConvGrads) (fG : Fin o.c.n → ℕ → ℝ),
      gpuSmallTrain E a Ws N cl o f os ls cs n out G gs gl fG → LevelsShape ls gs ∧ ConvShape N.last gl := by
  induction ls with
  | nil =>
    intro o f os cs n out G gs gl fG h
    match os, cs, h with
    | [o'], [], h =>
      obtain ⟨r, G', _, e, h', rfl⟩ := h
      exact ⟨.nil, h'.shape⟩
    | [], [], h => exact h.elim
    | _ :: _ :: _, [], h => exact h.elim
    | [], _ :: _, h => exact h.elim
    | [_], _ :: _, h => exact h.elim
    | _ :: _ :: _, _ :: _, h => exact h.elim
  | cons l ls ih =>
    intro o f os cs n out G gs gl fG h
    match os, cs, h with
    | o' :: os, c :: cs, h =>
      obtain ⟨r, G', gc, gs', g1, g3, g2, _, h2, _, _, _, h3, rfl⟩ := (gpuSmallTrain_cons ..).mp h
      obtain ⟨i1, i2⟩ := ih _ _ _ _ _ _ _ _ _ _ h2
      exact ⟨.cons h3.shape i1, i2⟩
    | [], [], h => exact h.elim
    | [_], [], h => exact h.elim
    | _ :: _ :: _, [], h => exact h.elim
    | [], _ :: _, h => exact h.elim

end

section
variable {k : ℕ} {ρ ε : ℝ}

/-! ### The updated network runs -/

/-- The call of the convolution returns a matrix (no invalid reshape). -/
def ConvReady : NetConv (k + 2) → Prop
  | .kp L => L.nkp = L.nk ∧ L.offs = none ∧ 0 < L.nk ∧ 0 < L.cin
  | _ => True

theorem NetConv.rms_ready (η : ℝ) {ci co : ℕ} (L A : NetConv (k + 2)) (g : ConvGrads) (hf : L.RmsFits ci co A) :
    ConvReady (L.rms ρ ε η A g) := by
  have hci : opFeaturesOk ci = true → 0 < ci := by
    intro h
    rcases Nat.eq_zero_or_pos ci with h' | h'
    · rw [h'] at h; exact absurd h (by decide)
    · exact h'
  match L, A, hf with
  | .mc L, .mc A, hf => unfold NetConv.rms; split <;> first | trivial | (rename_i h _ _; cases h) | (rename_i h _; cases h)
  | .pc L, .pc A, hf => unfold NetConv.rms; split <;> first | trivial | (rename_i h _ _; cases h) | (rename_i h _; cases h)
  | .kp L, .kp A, ⟨h1, h2, h3, h4, h5, h6⟩ =>
    match g with
    | .mc _ _ => exact ⟨h2, h3, h4, h1 ▸ hci h6⟩
    | .pc _ _ _ => exact ⟨h2, h3, h4, h1 ▸ hci h6⟩
    | .kp _ => exact ⟨h2, h3, h4, h1 ▸ hci h6⟩

theorem NetConv.ready_runs (E : NetEnv) {Ws : ℕ} (hW : 0 < Ws) (L : NetConv (k + 2)) (hL : ConvReady L)
    {cin cout : Cloud (Fin (k + 2) → ℝ)} (h1 : GpuCloud Ws cin) (h2 : GpuCloud Ws cout) {radius : ℝ} (hr : 0 < radius)
    (f : Fin cin.n → ℕ → ℝ) : ∃ r, L.GpuCall E Ws cin cout radius f (.ok r) := by
  match L, hL with
  | .mc L, _ =>
    obtain ⟨out, h⟩ := C108_mcconv_runs E.act Ws E.eps L cin cout radius (1 / 5) hr hW h1.pos h2.pos h1.one h2.one f
    exact ⟨out, out, h, rfl⟩
  | .pc L, _ =>
    obtain ⟨out, h⟩ := C108_pointconv_runs E.act Ws E.eps L cin cout radius (1 / 5) hr hW h1.pos h2.pos h1.one h2.one f
    exact ⟨out, out, h, rfl⟩
  | .kp L, ⟨k1, k2, k3, k4⟩ =>
    obtain ⟨r, h⟩ := C108_kpconv_runs Ws E.eps L cin cout radius none hr hW h2.pos h2.one f
    have h' := h
    obtain ⟨nb, hnb, off, ho, hres⟩ := h
    unfold KPLayer.GpuOffsets at ho
    rw [k2] at ho
    dsimp only at ho
    subst ho
    obtain ⟨wf, _, hres⟩ := hres
    have hm : min L.nk (L.nkp + padCols L.nk) = L.nk := min_eq_left (by omega)
    have hpos : 0 < L.cin * L.nk := Nat.mul_pos k4 k3
    unfold kpReshape at hres
    dsimp only at hres
    rw [hm, if_neg (by rw [Nat.mul_mod_left]; omega), Nat.mul_div_cancel _ hpos] at hres
    dsimp only at hres
    exact ⟨_, r, h', by rw [hres]; exact (if_pos rfl).symm⟩

/-- Levels with the same radii. -/
def LevelsLike (ls ls' : List (LevelSmall (k + 2))) : Prop :=
  List.Forall₂ (fun l l' => l'.convRadius = l.convRadius ∧ 0 < l.convRadius ∧ ConvReady l'.conv) ls ls'

theorem smallLoop_like (E : NetEnv) {Ws : ℕ} (hW : 0 < Ws) (N N' : NetSmall (k + 2)) (hr : N'.lastConvRadius = N.lastConvRadius)
    (hr0 : 0 < N.lastConvRadius) (hl : ConvReady N'.last) :
    ∀ (ls ls' : List (LevelSmall (k + 2))) (os : List (CloudObj (Fin (k + 2) → ℝ))) (o : CloudObj (Fin (k + 2) → ℝ))
      (f f' : Fin o.c.n → ℕ → ℝ) (n : ℕ) (out : Fin n → ℕ → ℝ), (∀ p ∈ o :: os, GpuCloud Ws p.c) → LevelsLike ls ls' →
      gpuNetSmallLoop E Ws N o f os ls (.ok ⟨n, out⟩) → ∃ out', gpuNetSmallLoop E Ws N' o f' os ls' (.ok ⟨n, out'⟩) := by
  intro ls
  induction ls with
  | nil =>
    intro ls' os o f f' n out hc hls h
    cases hls
    match os, hc, h with
    | [], hc, h => cases h
    | [o'], hc, h =>
      obtain ⟨r, _, h⟩ := h
      match r, h with
      | .ok r, h =>
        obtain ⟨r', hr'⟩ := N'.last.ready_runs E hW hl (hc o (by simp)) (hc o' (by simp)) (hr ▸ hr0) f'
        have e := Except.ok.inj h
        cases e
        exact ⟨_, .ok r', hr', rfl⟩
    | _ :: _ :: _, hc, h => cases h
  | cons l ls ih =>
    intro ls' os o f f' n out hc hls h
    cases hls with
    | cons hl1 hls =>
    rename_i l' ls'
    match os, hc, h with
    | [], hc, h => cases h
    | o' :: os, hc, h =>
      rw [gpuNetSmallLoop] at h
      obtain ⟨r, _, h⟩ := h
      match r, h with
      | .ok r, h =>
        obtain ⟨r', hr'⟩ := l'.conv.ready_runs E hW hl1.2.2 (hc o (by simp)) (hc o' (by simp)) (hl1.1 ▸ hl1.2.1) f'
        obtain ⟨out', ho⟩ := ih ls' os o' _ (E.bnAct l'.bn2 (l'.lin.apply (E.bnAct l'.bn1 r'))) n out
          (fun p hp => hc p (List.mem_cons_of_mem _ hp)) hls h
        refine ⟨out', ?_⟩
        rw [gpuNetSmallLoop]
        exact ⟨.ok r', hr', ho⟩

theorem levelsRms_like (η : ℝ) (cl : ℕ) (last lastA : NetConv (k + 2)) : ∀ (ls As : List (LevelSmall (k + 2))) (cs : List (ℕ × ℕ))
    (gs : List LevelGrads) (ci : ℕ), levelsRmsFit last lastA cl ci ls As cs → LevelsShape ls gs →
    LevelsLike ls (levelsRms ρ ε η ls As gs) ∧ ∃ c, last.RmsFits c cl lastA
  | [], [], [], _, ci, hf, .nil => by unfold levelsRms; exact ⟨.nil, ci, hf⟩
  | l :: ls, A :: As, c :: cs, _, ci, ⟨hf, hfs⟩, .cons (b := g) (l₂ := gs) hg hgs => by
    obtain ⟨i1, i2⟩ := levelsRms_like η cl last lastA ls As cs gs c.2 hfs hgs
    exact ⟨.cons ⟨rfl, hf.1, l.conv.rms_ready η _ _ hf.2.1⟩ i1, i2⟩

/-- A network with the same radii runs on the same input. -/
theorem NetSmall.like_runs (E : NetEnv) {Ws : ℕ} (hW : 0 < Ws) (N N' : NetSmall (k + 2)) (hr : N'.lastConvRadius = N.lastConvRadius)
    (hr0 : 0 < N.lastConvRadius) (hl : ConvReady N'.last) (hls : LevelsLike N.levels N'.levels) (C : ℕ) (e : ℝ)
    (clouds : List (CloudObj (Fin (k + 2) → ℝ))) (hc : ∀ p ∈ clouds, GpuCloud Ws p.c) (feats : List (List (ℕ → ℝ))) (labels : List ℕ)
    {loss : ℝ} (h : N.GpuLoss E Ws C e clouds feats labels loss) : ∃ l, N'.GpuLoss E Ws C e clouds feats labels l := by
  obtain ⟨logits, q1, q2, q3⟩ := h
  match clouds, hc, q1 with
  | [], hc, q1 => cases q1
  | o :: os, hc, q1 =>
    unfold NetSmall.GpuLogits at q1
    dsimp only at q1
    cases hf0 : (o.flattenFeatures feats).1 with
    | error er => rw [hf0] at q1; cases q1
    | ok f0 =>
      rw [hf0] at q1
      obtain ⟨r, q4, q5⟩ := q1
      match r, q4, q5 with
      | .ok ⟨n, out⟩, q4, q5 =>
        obtain ⟨out', ho⟩ := smallLoop_like E hW N N' hr hr0 hl _ _ _ _ _ f0 _ _ hc hls q4
        refine ⟨_, List.ofFn (N'.head.runSmall E out'), ?_, ?_, rfl⟩
        · unfold NetSmall.GpuLogits
          dsimp only
          rw [hf0]
          exact ⟨_, ho, rfl⟩
        · rw [q2, Except.ok.inj q5, List.length_ofFn, List.length_ofFn]

theorem NetSmall.GpuTrainStep.loss {E : NetEnv} {a : NonLin} {Ws : ℕ} {N : NetSmall (k + 2)} {cs : List (ℕ × ℕ)} {cl c1 C : ℕ} {e : ℝ}
    {m1 m2 : ∀ n, Fin n → ℕ → ℝ} {clouds : List (CloudObj (Fin (k + 2) → ℝ))} {feats : List (List (ℕ → ℝ))} {labels : List ℕ}
    {loss : ℝ} {g : SmallGrads} (ht : N.GpuTrainStep E a Ws cs cl c1 C e m1 m2 clouds feats labels loss g) :
    N.GpuLoss E Ws C e clouds feats labels loss := by
  unfold NetSmall.GpuTrainStep at ht
  match clouds, ht with
  | o :: os, ht =>
    dsimp only at ht
    cases hf0 : (o.flattenFeatures feats).1 with
    | error er => rw [hf0] at ht; exact ht.elim
    | ok f0 =>
      rw [hf0] at ht
      obtain ⟨n, out, lab, gs, gl, fG, hg, h1, h2, _, ht', rfl⟩ := ht
      refine ⟨List.ofFn (N.head.runSmall E out), ?_, ?_, ?_⟩
      · unfold NetSmall.GpuLogits
        dsimp only
        rw [hf0]
        exact ⟨_, gpuSmallTrain_forward E a Ws N cl _ _ _ _ _ _ _ _ _ _ _ ht', rfl⟩
      · rw [h1, List.length_ofFn, List.length_ofFn]
      · rw [h2, h1]
        rfl

/-! ### Away from kinks -/

/-- No activation function of the convolution is evaluated at its kink and no density network of `PointConv` vanishes. -/
def NetConv.Smooth (a : NonLin) (cin cout : Cloud (Fin (k + 2) → ℝ)) (radius : ℝ) : NetConv (k + 2) → Prop
  | .mc L => ∀ p c, cin.batch p = cout.batch c → ∑ d, (cin.pts p d - cout.pts c d) ^ 2 < radius ^ 2 →
      MlpSmooth a L.mlps (k + 2) L.layers (fun _ (_ : Fin 1) => rowOf (fun d => (cin.pts p d - cout.pts c d) / radius))
  | .pc L => ∀ p c, p ∈ nbrs cin cout radius c →
      (∀ b < L.hid, a.SmoothAt (∑ i ∈ Finset.range (k + 2), rowOf (fun d => cin.pts p d - cout.pts c d) i * L.axis i b + L.bias b)) ∧
      (∀ i < 16, density cuGauss cin (fun _ => 1 / 5) (fun _ => radius) p /
        maxOver (nbrs cin cout radius c) (density cuGauss cin (fun _ => 1 / 5) (fun _ => radius)) * L.pw1 i + L.pb1 i ≠ 0) ∧
      densityNet L.pw1 L.pb1 L.pw2 L.pb2 (density cuGauss cin (fun _ => 1 / 5) (fun _ => radius) p /
        maxOver (nbrs cin cout radius c) (density cuGauss cin (fun _ => 1 / 5) (fun _ => radius))) ≠ 0
  | .kp _ => True

theorem NetConv.line_smooth (a : NonLin) {cin cout : Cloud (Fin (k + 2) → ℝ)} {radius : ℝ} {ci co : ℕ} (L A : NetConv (k + 2))
    (g : ConvGrads) (hf : L.RmsFits ci co A) (hg : ConvShape L g) (hs : L.Smooth a cin cout radius) :
    (L.line ρ ε A g).Smooth a 0 cin cout radius := by
  match L, A, g, hf, hg with
  | .mc L, .mc A, .mc lG wG, hf, hg =>
    intro p c h1 h2
    rw [mlpLine_at 0 _ _ _ hf.2.2.2.2.2.1 hg, mlpRms_zero]
    exact hs p c h1 h2
  | .pc L, .pc A, .pc _ g w, hf, hg =>
    intro p c h
    simp only [rmsVar_zero]
    exact hs p c h
  | .kp L, .kp A, .kp w, hf, hg => trivial

/-- No activation function of the levels and of the last convolution is evaluated at its kink, from the features `f` on;
`cs` are the numbers of channels of the levels. -/
def levelsOff (E : NetEnv) (a : NonLin) (Ws : ℕ) (N : NetSmall (k + 2)) : (o : CloudObj (Fin (k + 2) → ℝ)) →
    (Fin o.c.n → ℕ → ℝ) → List (CloudObj (Fin (k + 2) → ℝ)) → List (LevelSmall (k + 2)) → List (ℕ × ℕ) → Prop
  | o, f, [o'], [], [] => N.last.Smooth a o.c o'.c N.lastConvRadius
  | o, f, o' :: os, l :: ls, c :: cs => l.conv.Smooth a o.c o'.c l.convRadius ∧
      ∀ r, l.conv.GpuCall E Ws o.c o'.c l.convRadius f (.ok r) →
        (∀ i, ∀ ch < c.1, l.bn1.apply true r i ch ≠ 0) ∧
        (∀ i, ∀ ch < c.2, l.bn2.apply true (l.lin.apply (E.bnAct l.bn1 r)) i ch ≠ 0) ∧
        levelsOff E a Ws N o' (E.bnAct l.bn2 (l.lin.apply (E.bnAct l.bn1 r))) os ls cs
  | _, _, _, _, _ => True

/-- No activation function of a head is evaluated at its kink and no probability is at a bound of the clipping. -/
def NetHead.Off (h : NetHead) (c0 c1 C : ℕ) (e : ℝ) {n : ℕ} (m1 m2 : Fin n → ℕ → ℝ) (out logits : Fin n → ℕ → ℝ) : Prop :=
  OffKink c0 m1 (h.bn1.apply true out) ∧
  OffKink c1 m2 (h.bn2.apply true (h.dense1.apply (maskMul m1 (fun i ch => kerasLrelu (h.bn1.apply true out i ch))))) ∧
  ∀ b, OffClip C e (logits b)

/-- No activation function of the network is evaluated at its kink and no probability is at a bound of the clipping, whatever
the schedule. -/
def NetSmall.Off (E : NetEnv) (a : NonLin) (Ws : ℕ) (cs : List (ℕ × ℕ)) (cl c1 C : ℕ) (e : ℝ) (m1 m2 : ∀ n, Fin n → ℕ → ℝ)
    (N : NetSmall (k + 2)) (clouds : List (CloudObj (Fin (k + 2) → ℝ))) (feats : List (List (ℕ → ℝ))) : Prop :=
  ∀ o os, clouds = o :: os → ∀ f0, (o.flattenFeatures feats).1 = .ok f0 →
    levelsOff E a Ws N o f0 os N.levels cs ∧
    ∀ n out, gpuNetSmallLoop E Ws N o f0 os N.levels (.ok ⟨n, out⟩) → N.head.Off cl c1 C e (m1 n) (m2 n) out (N.head.runSmall E out)

theorem levelsLine_smooth (E : NetEnv) (a : NonLin) (Ws : ℕ) (N : NetSmall (k + 2)) (M : SmallCurve (k + 2)) (lastA : NetConv (k + 2))
    (gl : ConvGrads) (hl : ConvShape N.last gl) (hM : M.last = N.last.line ρ ε lastA gl) (hR : M.lastConvRadius = N.lastConvRadius) (cl : ℕ) :
    ∀ (ls As : List (LevelSmall (k + 2))) (cs : List (ℕ × ℕ)) (gs : List LevelGrads) (ci : ℕ) (os : List (CloudObj (Fin (k + 2) → ℝ)))
      (o : CloudObj (Fin (k + 2) → ℝ)) (f : Fin o.c.n → ℕ → ℝ), levelsRmsFit N.last lastA cl ci ls As cs → LevelsShape ls gs →
      levelsOff E a Ws N o f os ls cs → levelsSmooth E a Ws 0 M o f os (levelsLine ρ ε ls As gs cs) := by
  intro ls
  induction ls with
  | nil =>
    intro As cs gs ci os o f hf hg h
    cases hg
    match As, cs, hf with
    | [], [], hf =>
      match os, h with
      | [], h => trivial
      | [o'], h =>
        change M.last.Smooth a 0 o.c o'.c M.lastConvRadius
        rw [hM, hR]
        exact N.last.line_smooth a _ _ hf hl h
      | _ :: _ :: _, h => trivial
  | cons l ls ih =>
    intro As cs gs ci os o f hf hg h
    cases hg with
    | cons hg hgs =>
    rename_i g gs
    match As, cs, hf with
    | A :: As, c :: cs, ⟨hf, hfs⟩ =>
      match os, h with
      | [], h => trivial
      | o' :: os, h =>
        rw [levelsOff] at h
        rw [levelsLine, levelsSmooth]
        refine ⟨l.conv.line_smooth a _ _ hf.2.1 hg h.1, fun r hr => ?_⟩
        have e : ((l.line ρ ε A g c).conv.at 0) = l.conv := by
          change (l.conv.line ρ ε A.conv g.conv).at 0 = _
          rw [l.conv.line_at 0 _ _ hf.2.1 hg, NetConv.rms_zero]
        rw [e] at hr
        have e1 : (l.line ρ ε A g c).bn1 0 = l.bn1 := BNorm.rms_zero _ _ _
        have e2 : (l.line ρ ε A g c).bn2 0 = l.bn2 := BNorm.rms_zero _ _ _
        have e3 : (l.line ρ ε A g c).lin 0 = l.lin := Lin.rms_zero _ _ _
        rw [e1, e2, e3]
        obtain ⟨q1, q2, q3⟩ := h.2 r hr
        exact ⟨q1, q2, ih As cs gs c.2 os o' _ hfs hgs q3⟩

theorem NetSmall.line_smooth (h0 : 0 ≤ ρ) (h1 : ρ ≤ 1) (hε : 0 < ε) (E : NetEnv) (a : NonLin) (Ws : ℕ) {ci : ℕ} (N A : NetSmall (k + 2)) (g : SmallGrads)
    (cs : List (ℕ × ℕ)) (cl c1 C : ℕ) (hf : N.RmsFits ci A cs cl c1) (hsh : LevelsShape N.levels g.levels) (hl : ConvShape N.last g.last)
    (e : ℝ) (m1 m2 : ∀ n, Fin n → ℕ → ℝ) (clouds : List (CloudObj (Fin (k + 2) → ℝ))) (feats : List (List (ℕ → ℝ)))
    (hs : N.Off E a Ws cs cl c1 C e m1 m2 clouds feats) : (N.line ρ ε A g cs cl c1 C).Smooth E a Ws 0 e m1 m2 clouds feats := by
  intro o os ec f0 hf0
  obtain ⟨q1, q2⟩ := hs o os ec f0 hf0
  refine ⟨levelsLine_smooth E a Ws N _ A.last g.last hl rfl rfl cl _ _ _ _ ci _ _ _ hf.levels hsh q1, fun n out h => ?_⟩
  rw [N.line_at h0 h1 hε A g cs cl c1 C hf hsh hl, NetSmall.rms_zero] at h
  have eh : (N.line ρ ε A g cs cl c1 C).head 0 = N.head := NetHead.rms_zero _ _ _
  rw [eh]
  exact q2 n out h

/-- **C162, small network**: let `g` be the gradients of a training step and not all be zero.  For all small enough learning
rates, the network after the update has a smaller loss on the same batch (with the same dropout), whatever the schedules on
the GPU and whatever the optimiser has accumulated before. -/
theorem C162_small_partial (h0 : 0 ≤ ρ) (h1 : ρ ≤ 1) (hε : 0 < ε) (hk : k ≤ 1) (E : NetEnv) (a : NonLin) (hE : E.act = a.fwd)
    (m1 m2 : ∀ n, Fin n → ℕ → ℝ) (hM : ∀ n, TrainEnvOk E (m1 n) (m2 n)) {Ws : ℕ} (hW : 0 < Ws) (N A : NetSmall (k + 2)) (ci : ℕ)
    (cs : List (ℕ × ℕ)) (cl c1 C : ℕ) (hN : N.RmsFits ci A cs cl c1)
    (e : ℝ) (he : 0 < e) (he' : e < 1 / 2) (clouds : List (CloudObj (Fin (k + 2) → ℝ))) (hc : ∀ p ∈ clouds, GpuCloud Ws p.c)
    (feats : List (List (ℕ → ℝ))) (labels : List ℕ) (hlab : ∀ l ∈ labels, l < C) (loss : ℝ) (g : SmallGrads)
    (ht : N.GpuTrainStep E a Ws cs cl c1 C e m1 m2 clouds feats labels loss g)
    (hs : N.Off E a Ws cs cl c1 C e m1 m2 clouds feats) (hg : ∃ x ∈ N.nums ci cs cl c1 C g, x ≠ 0) :
    ∃ δ > 0, ∀ η, 0 < η → η < δ → ∀ l, (N.rms ρ ε η A g).GpuLoss E Ws C e clouds feats labels l → l < loss := by
  have hloss := ht.loss
  have hshape : LevelsShape N.levels g.levels ∧ ConvShape N.last g.last := by
    clear hs hloss
    unfold NetSmall.GpuTrainStep at ht
    match clouds, ht with
    | o :: os, ht =>
      dsimp only at ht
      cases hf0 : (o.flattenFeatures feats).1 with
      | error er => rw [hf0] at ht; exact ht.elim
      | ok f0 =>
        rw [hf0] at ht
        obtain ⟨n, out, lab, gs, gl, fG, hg, _, _, _, ht', rfl⟩ := ht
        exact gpuSmallTrain_shape E a Ws N cl _ _ _ _ _ _ _ _ _ _ _ ht'
  obtain ⟨hsh, hsl⟩ := hshape
  obtain ⟨_, i2, i3, i4⟩ := levelsLine_spec (ρ := ρ) (ε := ε) h0 h1 hε N.last A.last cl g.last hsl _ _ _ _ ci hN.levels hsh
  have hd : Down ((N.line ρ ε A g cs cl c1 C).pairing 0 ci g) (N.nums ci cs cl c1 C g) :=
    i4.add (N.head.rms_down h0 h1 hε _ _ _ _ _)
  have hat : ∀ η, (N.line ρ ε A g cs cl c1 C).at η = N.rms ρ ε η A g := N.line_at h0 h1 hε A g cs cl c1 C hN hsh hsl
  have hneg : (N.line ρ ε A g cs cl c1 C).pairing 0 ci g < 0 := by
    refine lt_of_le_of_ne hd.1 fun h => ?_
    obtain ⟨x, hx, hx0⟩ := hg
    exact hx0 (hd.2 h x hx)
  have hrun : ∀ η, ∃ l, (N.rms ρ ε η A g).GpuLoss E Ws C e clouds feats labels l := by
    intro η
    obtain ⟨r1, _, r2⟩ := levelsRms_like (ρ := ρ) (ε := ε) η cl N.last A.last _ _ _ _ ci hN.levels hsh
    exact N.like_runs E hW (N.rms ρ ε η A g) rfl hN.radius (N.last.rms_ready η _ _ r2) r1 C e clouds hc feats labels hloss
  refine lower_of_runs hrun hneg fun f hf hfr => ?_
  refine C160_small_partial hk E a hE m1 m2 hM hW 0 (N.line ρ ε A g cs cl c1 C) ci ⟨i3, hN.radius, N.head.rms_moves _ _ _ hN.head⟩ e he he'
    clouds hc feats labels hlab (N.line_smooth h0 h1 hε E a Ws A g cs cl c1 C hN hsh hsl e m1 m2 clouds feats hs) f
    (fun η hη => by rw [hat]; exact hfr η hη) g ?_
  rw [hat, NetSmall.rms_zero, hf]
  have : (N.line ρ ε A g cs cl c1 C).levels.map (fun l => (l.c1, l.c2)) = cs := i2
  rw [this]
  exact ht

end

/-! ### The residual network -/

section
variable {ρ ε : ℝ} {D : ℕ}

/-- The skip connection as a function of the learning rate. -/
noncomputable def projLine (ρ ε : ℝ) {m : ℕ} : Option (BNorm × Lin) → Option (BNorm × Lin) → Option (BnGrads m × LinGrads m) →
    Option (((ℝ → BNorm) × BNorm) × ((ℝ → Lin) × Lin))
  | some p, some q, some r => some ((fun η => p.1.rms ρ ε η q.1 r.1, p.1.rmsVel ρ ε q.1 r.1),
      (fun η => p.2.rms ρ ε η q.2 r.2, p.2.rmsVel ρ ε q.2 r.2))
  | _, _, _ => none

/-- A block as a function of the learning rate; `c` are its numbers of channels. -/
noncomputable def NetBlock.line (ρ ε : ℝ) (b A : NetBlock D) (g : BlockGrads) (c : ℕ × ℕ) : BlockCurve D where
  bn0 := fun η => b.bn0.rms ρ ε η A.bn0 g.bn0
  bn0' := b.bn0.rmsVel ρ ε A.bn0 g.bn0
  down := fun η => b.down.rms ρ ε η A.down g.down
  down' := b.down.rmsVel ρ ε A.down g.down
  bn1 := fun η => b.bn1.rms ρ ε η A.bn1 g.bn1
  bn1' := b.bn1.rmsVel ρ ε A.bn1 g.bn1
  conv := b.conv.line ρ ε A.conv g.conv
  bn2 := fun η => b.bn2.rms ρ ε η A.bn2 g.bn2
  bn2' := b.bn2.rmsVel ρ ε A.bn2 g.bn2
  up := fun η => b.up.rms ρ ε η A.up g.up
  up' := b.up.rmsVel ρ ε A.up g.up
  strided := b.strided
  proj := projLine ρ ε b.proj A.proj g.proj
  cr := c.1
  co := c.2

/-- Sizes of the skip connection. -/
def projFits (ci co : ℕ) : Option (BNorm × Lin) → Option (BNorm × Lin) → Prop
  | none, none => ci = co
  | some p, some _ => 0 < p.1.eps ∧ p.2.cin = ci
  | _, _ => False

/-- Sizes of a block and of its accumulators: `ci` channels before, `c` inside and after it. -/
structure NetBlock.RmsFits (ci : ℕ) (b A : NetBlock D) (c : ℕ × ℕ) : Prop where
  bn0 : 0 < b.bn0.eps
  down : b.down.cin = ci
  bn1 : 0 < b.bn1.eps
  conv : b.conv.RmsFits c.1 c.1 A.conv
  bn2 : 0 < b.bn2.eps
  up : b.up.cin = c.1
  proj : projFits ci c.2 b.proj A.proj

/-- Gradients of the skip connection. -/
def projNums (ci co : ℕ) {m : ℕ} : Option (BNorm × Lin) → Option (BnGrads m × LinGrads m) → List ℝ
  | some _, some q => bnNums ci q.1 ++ linNums ci co q.2
  | _, _ => []

/-- Gradients of a block. -/
def NetBlock.nums (ci : ℕ) (b : NetBlock D) (c : ℕ × ℕ) (g : BlockGrads) : List ℝ :=
  bnNums ci g.bn0 ++ linNums ci c.1 g.down ++ bnNums c.1 g.bn1 ++ b.conv.nums c.1 c.1 g.conv ++ bnNums c.1 g.bn2 ++
    linNums c.1 c.2 g.up ++ projNums ci c.2 b.proj g.proj

/-- The gradients are those of a block like `b`. -/
def BlockShape (b : NetBlock D) (g : BlockGrads) : Prop := ConvShape b.conv g.conv ∧ b.proj.isSome = g.proj.isSome

theorem NetBlock.line_at (η : ℝ) {ci : ℕ} {c : ℕ × ℕ} (b A : NetBlock D) (g : BlockGrads) (hf : b.RmsFits ci A c) (hg : BlockShape b g) :
    (b.line ρ ε A g c).at η = b.rms ρ ε η A g := by
  have hp : (projLine ρ ε b.proj A.proj g.proj).map (fun p => (p.1.1 η, p.2.1 η)) = projRms ρ ε η b.proj A.proj g.proj := by
    have h1 := hf.proj
    have h2 := hg.2
    generalize b.proj = p at h1 h2 ⊢
    generalize A.proj = q at h1 ⊢
    generalize g.proj = r at h2 ⊢
    match p, q, r, h1, h2 with
    | none, none, none, _, _ => rfl
    | some p, some q, some r, _, _ => rfl
  simp only [BlockCurve.at, NetBlock.line, NetBlock.rms, b.conv.line_at η _ _ hf.conv hg.1, hp]

theorem NetBlock.rms_zero (b A : NetBlock D) (g : BlockGrads) : b.rms ρ ε 0 A g = b := by
  have hp : projRms ρ ε 0 b.proj A.proj g.proj = b.proj := by
    generalize b.proj = p
    generalize A.proj = q
    generalize g.proj = r
    match p, q, r with
    | none, _, _ => rfl
    | some p, none, _ => rfl
    | some p, some q, none => rfl
    | some p, some q, some r => simp only [projRms, BNorm.rms_zero, Lin.rms_zero]
  simp only [NetBlock.rms, BNorm.rms_zero, Lin.rms_zero, NetConv.rms_zero, hp]

theorem NetBlock.line_moves {ci : ℕ} {c : ℕ × ℕ} (b A : NetBlock D) (g : BlockGrads) (hf : b.RmsFits ci A c) (hg : BlockShape b g) :
    (b.line ρ ε A g c).Moves 0 ci := by
  refine ⟨b.bn0.rms_moves _ _ _ hf.bn0, b.down.rms_moves _ _ _ hf.down, b.bn1.rms_moves _ _ _ hf.bn1, b.conv.line_moves _ _ hf.conv hg.1,
    b.bn2.rms_moves _ _ _ hf.bn2, b.up.rms_moves _ _ _ hf.up, ?_, ?_⟩
  · intro h
    have h1 := hf.proj
    have h2 := hg.2
    simp only [NetBlock.line] at h ⊢
    generalize b.proj = p at h1 h2 h
    generalize A.proj = q at h1 h
    generalize g.proj = r at h2 h
    match p, q, r, h1, h2, h with
    | none, none, none, h1, _, _ => exact h1
    | some p, some q, some r, h1, _, h => cases h
  · intro p' h
    have h1 := hf.proj
    have h2 := hg.2
    simp only [NetBlock.line] at h ⊢
    generalize b.proj = p at h1 h2 h
    generalize A.proj = q at h1 h
    generalize g.proj = r at h2 h
    match p, q, r, h1, h2, h with
    | none, none, none, h1, _, h => cases h
    | some p, some q, some r, h1, _, h =>
      obtain rfl := Option.some.inj h
      exact ⟨p.1.rms_moves _ _ _ h1.1, p.2.rms_moves _ _ _ h1.2⟩

theorem NetBlock.line_down (h0 : 0 ≤ ρ) (h1 : ρ ≤ 1) (hε : 0 < ε) {ci : ℕ} {c : ℕ × ℕ} (b A : NetBlock D) (g : BlockGrads)
    (hf : b.RmsFits ci A c) (hg : BlockShape b g) : Down ((b.line ρ ε A g c).pairing 0 ci g) (b.nums ci c g) := by
  refine ((((((b.bn0.rms_down h0 h1 hε _ _ _).add (b.down.rms_down h0 h1 hε _ _ _ _)).add (b.bn1.rms_down h0 h1 hε _ _ _)).add
    (b.conv.line_down h0 h1 hε _ _ hf.conv hg.1)).add (b.bn2.rms_down h0 h1 hε _ _ _)).add (b.up.rms_down h0 h1 hε _ _ _ _)).add ?_
  have h2 := hf.proj
  have h3 := hg.2
  simp only [NetBlock.line]
  generalize b.proj = p at h2 h3 ⊢
  generalize A.proj = q at h2 ⊢
  generalize g.proj = r at h3 ⊢
  match p, q, r, h2, h3 with
  | none, none, none, _, _ => exact Down.zero
  | some p, some q, some r, _, _ => exact (p.1.rms_down h0 h1 hε _ _ _).add (p.2.rms_down h0 h1 hε _ _ _ _)

/-- All levels as functions of the learning rate. -/
noncomputable def levels40Line (ρ ε : ℝ) : List (Level40 D) → List (Level40 D) → List (BlockGrads × BlockGrads) →
    List ((ℕ × ℕ) × (ℕ × ℕ)) → List (Level40Curve D)
  | l :: ls, A :: As, g :: gs, c :: cs => ⟨l.strided.line ρ ε A.strided g.1 c.1, l.block.line ρ ε A.block g.2 c.2, l.poolRadius, l.convRadius⟩ ::
      levels40Line ρ ε ls As gs cs
  | _, _, _, _ => []

/-- The network as a function of the learning rate of one update: `c0` channels after the first convolution, `b0` of the
first block, `cs` of the levels, `ce` after them. -/
noncomputable def Net40.line (ρ ε : ℝ) (N A : Net40 D) (g : Grads40) (c0 : ℕ) (b0 : ℕ × ℕ) (cs : List ((ℕ × ℕ) × (ℕ × ℕ))) (ce c1 C : ℕ) :
    Curve40 D where
  init := N.init.line ρ ε A.init g.init
  block0 := N.block0.line ρ ε A.block0 g.block0 b0
  poolRadius0 := N.poolRadius0
  convRadius0 := N.convRadius0
  levels := levels40Line ρ ε N.levels A.levels g.levels cs
  head := fun η => N.head.rms ρ ε η A.head g.head
  head' := N.head.rmsVel ρ ε A.head g.head
  c0 := c0
  ce := ce
  c1 := c1
  C := C

/-- Sizes of the levels and of their accumulators: `ci` channels before, `ce` after them. -/
def levels40RmsFit (ce : ℕ) : ℕ → List (Level40 D) → List (Level40 D) → List ((ℕ × ℕ) × (ℕ × ℕ)) → Prop
  | ci, [], [], [] => ci = ce
  | ci, l :: ls, A :: As, c :: cs => (0 < l.poolRadius ∧ 0 < l.convRadius ∧ l.strided.RmsFits ci A.strided c.1 ∧ l.block.strided = false ∧
      l.block.RmsFits c.1.2 A.block c.2) ∧ levels40RmsFit ce c.2.2 ls As cs
  | _, _, _, _ => False

/-- Sizes of the network and of its accumulators. -/
structure Net40.RmsFits (ci : ℕ) (N A : Net40 D) (c0 : ℕ) (b0 : ℕ × ℕ) (cs : List ((ℕ × ℕ) × (ℕ × ℕ))) (ce c1 : ℕ) : Prop where
  init : N.init.RmsFits ci c0 A.init
  block0 : N.block0.RmsFits c0 A.block0 b0
  plain : N.block0.strided = false
  radius : 0 < N.convRadius0
  levels : levels40RmsFit ce b0.2 N.levels A.levels cs
  head : N.head.RmsFits ce c1

/-- Gradients of the levels. -/
def levels40Nums : ℕ → List (Level40 D) → List ((ℕ × ℕ) × (ℕ × ℕ)) → List (BlockGrads × BlockGrads) → List ℝ
  | ci, l :: ls, c :: cs, g :: gs => l.strided.nums ci c.1 g.1 ++ l.block.nums c.1.2 c.2 g.2 ++ levels40Nums c.2.2 ls cs gs
  | _, _, _, _ => []

/-- All gradients of the network. -/
def Net40.nums (ci : ℕ) (N : Net40 D) (c0 : ℕ) (b0 : ℕ × ℕ) (cs : List ((ℕ × ℕ) × (ℕ × ℕ))) (ce c1 C : ℕ) (g : Grads40) : List ℝ :=
  N.init.nums ci c0 g.init ++ N.block0.nums c0 b0 g.block0 ++ levels40Nums b0.2 N.levels cs g.levels ++ headNums ce c1 C g.head

/-- The gradients of the levels are those of levels like `ls`. -/
def Levels40Shape (ls : List (Level40 D)) (gs : List (BlockGrads × BlockGrads)) : Prop :=
  List.Forall₂ (fun l g => BlockShape l.strided g.1 ∧ BlockShape l.block g.2) ls gs

theorem levels40Line_spec (h0 : 0 ≤ ρ) (h1 : ρ ≤ 1) (hε : 0 < ε) (ce : ℕ) :
    ∀ (ls As : List (Level40 D)) (cs : List ((ℕ × ℕ) × (ℕ × ℕ))) (gs : List (BlockGrads × BlockGrads)) (ci : ℕ),
      levels40RmsFit ce ci ls As cs → Levels40Shape ls gs →
      (∀ η, (levels40Line ρ ε ls As gs cs).map (fun l => l.at η) = levels40Rms ρ ε η ls As gs) ∧
      (levels40Line ρ ε ls As gs cs).map Level40Curve.chans = cs ∧
      levels40Move 0 ce ci (levels40Line ρ ε ls As gs cs) ∧
      Down (levels40Pairing 0 ci (levels40Line ρ ε ls As gs cs) gs) (levels40Nums ci ls cs gs)
  | [], [], [], _, ci, hf, .nil => ⟨fun _ => rfl, rfl, hf, Down.zero⟩
  | l :: ls, A :: As, c :: cs, _, ci, ⟨⟨f1, f2, f3, f4, f5⟩, hf⟩, .cons (b := g) (l₂ := gs) hg hgs => by
    obtain ⟨i1, i2, i3, i4⟩ := levels40Line_spec h0 h1 hε ce ls As cs gs c.2.2 hf hgs
    refine ⟨fun η => ?_, ?_, ⟨f1, f2, l.strided.line_moves _ _ f3 hg.1, f4, l.block.line_moves _ _ f5 hg.2, i3⟩, ?_⟩
    · simp only [levels40Line, levels40Rms, List.map_cons, i1]
      congr 1
      simp only [Level40Curve.at, l.strided.line_at η _ _ f3 hg.1, l.block.line_at η _ _ f5 hg.2]
    · simp only [levels40Line, List.map_cons, i2]
      rfl
    · exact ((l.strided.line_down h0 h1 hε _ _ f3 hg.1).add (l.block.line_down h0 h1 hε _ _ f5 hg.2)).add i4

theorem levels40Rms_zero : ∀ (ls As : List (Level40 D)) (gs : List (BlockGrads × BlockGrads)), levels40Rms ρ ε 0 ls As gs = ls
  | [], _, _ => by unfold levels40Rms; rfl
  | _ :: _, [], _ => by unfold levels40Rms; rfl
  | _ :: _, _ :: _, [] => by unfold levels40Rms; rfl
  | l :: ls, A :: As, g :: gs => by
    simp only [levels40Rms, levels40Rms_zero ls As gs, NetBlock.rms_zero]

theorem Net40.rms_zero (N A : Net40 D) (g : Grads40) : N.rms ρ ε 0 A g = N := by
  simp only [Net40.rms, levels40Rms_zero, NetConv.rms_zero, NetHead.rms_zero, NetBlock.rms_zero]

end

section
variable {k : ℕ} {ρ ε : ℝ}

theorem NetBlock.GpuTrain.shape {E : NetEnv} {a : NonLin} {Ws : ℕ} {b : NetBlock (k + 2)} {cr co : ℕ} {cin cout : Cloud (Fin (k + 2) → ℝ)}
    {convRadius radius : ℝ} {f : Fin cin.n → ℕ → ℝ} {out G : Fin cout.n → ℕ → ℝ} {g : BlockGrads} {fG : Fin cin.n → ℕ → ℝ}
    (h : b.GpuTrain E a Ws cr co cin cout convRadius radius f out G g fG) : BlockShape b g := by
  obtain ⟨r, s, sG, cG, fS, g0, g1, gd, gc, g2, gu, gp, hc, hp, ho, _, _, hgc, _, _, _, hskip, _, rfl, _⟩ := h
  refine ⟨hgc.shape, ?_⟩
  cases hb : b.proj with
  | none => rw [hb] at hskip; rw [hskip.1]; rfl
  | some p => rw [hb] at hskip; rw [hskip.1]; rfl

theorem gpu40Train_shape (E : NetEnv) (a : NonLin) (Ws : ℕ) (ls : List (Level40 (k + 2))) :
    ∀ (cs : List ((ℕ × ℕ) × (ℕ × ℕ))) (os : List (CloudObj (Fin (k + 2) → ℝ)))
      (o : CloudObj (Fin (k + 2) → ℝ)) (f : Fin o.c.n → ℕ → ℝ) (oE : CloudObj (Fin (k + 2) → ℝ)) (fE G : Fin oE.c.n → ℕ → ℝ)
      (gs : List (BlockGrads × BlockGrads)) (fG : Fin o.c.n → ℕ → ℝ),
      gpu40Train E a Ws o f os ls cs oE fE G gs fG → Levels40Shape ls gs := by
  induction ls with
  | nil =>
    intro cs os o f oE fE G gs fG h
    match os, cs, h with
    | [], [], h =>
      unfold gpu40Train at h
      rw [h.2]
      exact .nil
    | _ :: _, [], h => exact h.elim
    | [], _ :: _, h => exact h.elim
    | _ :: _, _ :: _, h => exact h.elim
  | cons l ls ih =>
    intro cs os o f oE fE G gs fG h
    match os, cs, h with
    | [], [], h => exact h.elim
    | _ :: _, [], h => exact h.elim
    | [], _ :: _, h => exact h.elim
    | o' :: os, c :: cs, h =>
      unfold gpu40Train at h
      obtain ⟨f1, f2, G1, G2, g1, g2, gs', h1, h2, h3, rfl⟩ := h
      exact .cons ⟨h1.shape, h2.shape⟩ (ih cs os o' f2 oE fE G gs' G2 h3)

/-- A block that returns on the same clouds. -/
structure BlockLike (b b' : NetBlock (k + 2)) : Prop where
  strided : b'.strided = b.strided
  conv : ConvReady b'.conv

theorem NetBlock.like_runs (E : NetEnv) {Ws : ℕ} (hW : 0 < Ws) (b b' : NetBlock (k + 2)) (hb : BlockLike b b')
    {cin cout : Cloud (Fin (k + 2) → ℝ)} (h1 : GpuCloud Ws cin) (h2 : GpuCloud Ws cout) {convRadius radius : ℝ} (hr : 0 < convRadius)
    (f f' : Fin cin.n → ℕ → ℝ) (out : Fin cout.n → ℕ → ℝ) (h : b.GpuRun E Ws cin cout convRadius radius f (.ok out)) :
    ∃ out', b'.GpuRun E Ws cin cout convRadius radius f' (.ok out') := by
  obtain ⟨r, _, h⟩ := h
  match r, h with
  | .ok r, h =>
    obtain ⟨s, h, hs⟩ := h
    match s, h, hs with
    | .ok s, h, hs =>
      obtain ⟨r', hr'⟩ := b'.conv.ready_runs E hW hb.conv h1 h2 hr (E.bnAct b'.bn1 (b'.down.apply (E.bnAct b'.bn0 f')))
      have hp : ∃ s', b'.GpuPool E Ws cin cout radius f' (.ok s') := by
        unfold NetBlock.GpuPool at h ⊢
        rw [hb.strided]
        by_cases hst : b.strided = true
        · rw [if_pos hst] at h
          simp only [if_pos hst]
          obtain ⟨_, ⟨nb, hnb, _⟩, _⟩ := h
          exact ⟨_, _, ⟨nb, hnb, rfl⟩, rfl⟩
        · rw [if_neg hst] at h
          simp only [if_neg hst]
          by_cases hn : cout.n = cin.n
          · refine ⟨fun i => f' (Fin.cast hn i), ?_⟩
            rw [dif_pos hn]
          · rw [dif_neg hn] at h
            cases h
      obtain ⟨s', hs'⟩ := hp
      exact ⟨_, .ok r', hr', .ok s', hs', rfl⟩

/-- Levels with the same radii. -/
def Levels40Like (ls ls' : List (Level40 (k + 2))) : Prop :=
  List.Forall₂ (fun l l' => (l'.poolRadius = l.poolRadius ∧ 0 < l.poolRadius) ∧ (l'.convRadius = l.convRadius ∧ 0 < l.convRadius) ∧
    BlockLike l.strided l'.strided ∧ BlockLike l.block l'.block) ls ls'

theorem net40Loop_like (E : NetEnv) {Ws : ℕ} (hW : 0 < Ws) :
    ∀ (ls ls' : List (Level40 (k + 2))) (os : List (CloudObj (Fin (k + 2) → ℝ))) (o : CloudObj (Fin (k + 2) → ℝ))
      (f f' : Fin o.c.n → ℕ → ℝ) (oE : CloudObj (Fin (k + 2) → ℝ)) (out : Fin oE.c.n → ℕ → ℝ), (∀ p ∈ o :: os, GpuCloud Ws p.c) →
      Levels40Like ls ls' → gpuNet40Loop E Ws o f os ls (.ok ⟨oE, out⟩) → ∃ out', gpuNet40Loop E Ws o f' os ls' (.ok ⟨oE, out'⟩) := by
  intro ls
  induction ls with
  | nil =>
    intro ls' os o f f' oE out hc hls h
    cases hls
    match os, h with
    | [], h =>
      rw [gpuNet40Loop] at h
      cases Except.ok.inj h
      refine ⟨f', ?_⟩
      rw [gpuNet40Loop]
    | _ :: _, h => cases h
  | cons l ls ih =>
    intro ls' os o f f' oE out hc hls h
    cases hls with
    | cons hl hls =>
    rename_i l' ls'
    match os, hc, h with
    | [], hc, h => cases h
    | o' :: os, hc, h =>
      rw [gpuNet40Loop] at h
      obtain ⟨r1, h1, h⟩ := h
      match r1, h1, h with
      | .ok f1, h1, h =>
        obtain ⟨r2, h2, h⟩ := h
        match r2, h2, h with
        | .ok f2, h2, h =>
          obtain ⟨⟨p1, p2⟩, ⟨c1, c2⟩, b1, b2⟩ := hl
          obtain ⟨f1', k1⟩ := NetBlock.like_runs E hW _ _ b1 (hc o (by simp)) (hc o' (by simp)) p2 f f' f1 h1
          obtain ⟨f2', k2⟩ := NetBlock.like_runs E hW _ _ b2 (hc o' (by simp)) (hc o' (by simp)) c2 f1 f1' f2 h2
          obtain ⟨out', ho⟩ := ih ls' os o' f2 f2' oE out (fun p hp => hc p (List.mem_cons_of_mem _ hp)) hls h
          refine ⟨out', ?_⟩
          rw [gpuNet40Loop, p1, c1]
          exact ⟨.ok f1', k1, .ok f2', k2, ho⟩

theorem levels40Rms_like (η : ℝ) (ce : ℕ) : ∀ (ls As : List (Level40 (k + 2))) (cs : List ((ℕ × ℕ) × (ℕ × ℕ)))
    (gs : List (BlockGrads × BlockGrads)) (ci : ℕ), levels40RmsFit ce ci ls As cs → Levels40Shape ls gs →
    Levels40Like ls (levels40Rms ρ ε η ls As gs)
  | [], [], [], _, ci, hf, .nil => by unfold levels40Rms; exact .nil
  | l :: ls, A :: As, c :: cs, _, ci, ⟨⟨f1, f2, f3, f4, f5⟩, hfs⟩, .cons (b := g) (l₂ := gs) hg hgs =>
    .cons ⟨⟨rfl, f1⟩, ⟨rfl, f2⟩, ⟨rfl, l.strided.conv.rms_ready η _ _ f3.conv⟩, ⟨rfl, l.block.conv.rms_ready η _ _ f5.conv⟩⟩
      (levels40Rms_like η ce ls As cs gs c.2.2 hfs hgs)

/-- A network with the same radii runs on the same input. -/
theorem Net40.like_runs (E : NetEnv) {Ws : ℕ} (hW : 0 < Ws) (N N' : Net40 (k + 2)) (hr : N'.convRadius0 = N.convRadius0)
    (hr0 : 0 < N.convRadius0) (hi : ConvReady N'.init) (hb : BlockLike N.block0 N'.block0) (hls : Levels40Like N.levels N'.levels)
    (C : ℕ) (e : ℝ) (clouds : List (CloudObj (Fin (k + 2) → ℝ))) (hc : ∀ p ∈ clouds, GpuCloud Ws p.c) (feats : List (List (ℕ → ℝ)))
    (labels : List ℕ) {loss : ℝ} (h : N.GpuLoss E Ws C e clouds feats labels loss) : ∃ l, N'.GpuLoss E Ws C e clouds feats labels l := by
  obtain ⟨logits, q1, q2, q3⟩ := h
  match clouds, hc, q1 with
  | [], hc, q1 => cases q1
  | [_], hc, q1 => cases q1
  | o :: o1 :: os, hc, q1 =>
    have hc1 : ∀ p ∈ o1 :: os, GpuCloud Ws p.c := fun p hp => hc p (List.mem_cons_of_mem _ hp)
    unfold Net40.GpuLogits at q1
    dsimp only at q1
    cases hf0 : net40Init o1 feats with
    | error er => rw [hf0] at q1; cases q1
    | ok f0 =>
      rw [hf0] at q1
      obtain ⟨r1, v1, q1⟩ := q1
      match r1, v1, q1 with
      | .ok f1, v1, q1 =>
        obtain ⟨r2, v2, q1⟩ := q1
        match r2, v2, q1 with
        | .ok f2, v2, q1 =>
          obtain ⟨r3, v3, q1⟩ := q1
          match r3, v3, q1 with
          | .ok ⟨oE, fE⟩, v3, q1 =>
            obtain ⟨f1', k1⟩ := N'.init.ready_runs E hW hi (hc1 o1 (by simp)) (hc1 o1 (by simp)) (hr ▸ hr0) f0
            obtain ⟨f2', k2⟩ := NetBlock.like_runs E hW _ _ hb (hc1 o1 (by simp)) (hc1 o1 (by simp)) hr0 f1 f1' f2 v2
            obtain ⟨fE', k3⟩ := net40Loop_like E hW _ _ _ _ _ f2' _ _ hc1 hls v3
            refine ⟨_, List.ofFn (N'.head.run40 E (fun (b : Fin oE.c.B) ch => (globalPool .mean oE.c fE' b ch).getD 0)), ?_, ?_, rfl⟩
            · unfold Net40.GpuLogits
              dsimp only
              rw [hf0]
              refine ⟨.ok f1', k1, .ok f2', ?_, .ok ⟨oE, fE'⟩, k3, rfl⟩
              rw [hr]
              exact k2
            · rw [q2, Except.ok.inj q1, List.length_ofFn, List.length_ofFn]

theorem Net40.GpuTrainStep.loss {E : NetEnv} {a : NonLin} {Ws : ℕ} {N : Net40 (k + 2)} {c0 : ℕ} {b0 : ℕ × ℕ}
    {cs : List ((ℕ × ℕ) × (ℕ × ℕ))} {c1 C : ℕ} {e : ℝ}
    {m1 m2 : ∀ n, Fin n → ℕ → ℝ} {clouds : List (CloudObj (Fin (k + 2) → ℝ))} {feats : List (List (ℕ → ℝ))} {labels : List ℕ}
    {loss : ℝ} {g : Grads40} (ht : N.GpuTrainStep E a Ws c0 b0 cs c1 C e m1 m2 clouds feats labels loss g) :
    N.GpuLoss E Ws C e clouds feats labels loss := by
  unfold Net40.GpuTrainStep at ht
  match clouds, ht with
  | o :: o1 :: os, ht =>
    dsimp only at ht
    cases hf0 : net40Init o1 feats with
    | error er => rw [hf0] at ht; exact ht.elim
    | ok f0 =>
      rw [hf0] at ht
      obtain ⟨f1, f2, G1, G2, fG, oE, fE, lab, gi, g0, gs, hg, t0, t1, t2, l1, l2, _, t3, rfl⟩ := ht
      refine ⟨List.ofFn (N.head.run40 E (pooled40 oE fE)), ?_, ?_, ?_⟩
      · unfold Net40.GpuLogits
        dsimp only
        rw [hf0]
        exact ⟨.ok f1, t0, .ok f2, t1.run, .ok ⟨oE, fE⟩, gpu40Train_forward E a Ws _ _ _ _ _ _ _ _ _ _ t2, rfl⟩
      · rw [l1, List.length_ofFn, List.length_ofFn]
      · rw [l2, l1]
        rfl

/-- No activation function of the block is evaluated at its kink, and maxima are attained once; `ci` channels before, `c`
inside and after it. -/
structure NetBlock.Off (E : NetEnv) (a : NonLin) (Ws : ℕ) (ci : ℕ) (b : NetBlock (k + 2)) (c : ℕ × ℕ)
    (cin cout : Cloud (Fin (k + 2) → ℝ)) (convRadius radius : ℝ) (f : Fin cin.n → ℕ → ℝ) : Prop where
  bn0 : ∀ i, ∀ ch < ci, b.bn0.apply true f i ch ≠ 0
  bn1 : ∀ i, ∀ ch < c.1, b.bn1.apply true (b.down.apply (E.bnAct b.bn0 f)) i ch ≠ 0
  conv : b.conv.Smooth a cin cout convRadius
  bn2 : ∀ r, b.conv.GpuCall E Ws cin cout convRadius (E.bnAct b.bn1 (b.down.apply (E.bnAct b.bn0 f))) (.ok r) →
    ∀ i, ∀ ch < c.1, b.bn2.apply true r i ch ≠ 0
  pool : b.strided = true → MaxOnce cin cout radius ci f
  proj : ∀ p, b.proj = some p → ∀ s, b.GpuPool E Ws cin cout radius f (.ok s) → ∀ i, ∀ ch < ci, p.1.apply true s i ch ≠ 0

theorem NetBlock.line_smooth (E : NetEnv) (a : NonLin) (Ws : ℕ) {ci : ℕ} {c : ℕ × ℕ} (b A : NetBlock (k + 2)) (g : BlockGrads)
    (hf : b.RmsFits ci A c) (hg : BlockShape b g) {cin cout : Cloud (Fin (k + 2) → ℝ)} {convRadius radius : ℝ} {f : Fin cin.n → ℕ → ℝ}
    (h : b.Off E a Ws ci c cin cout convRadius radius f) : (b.line ρ ε A g c).Smooth E a Ws 0 ci cin cout convRadius radius f := by
  have e0 : (b.line ρ ε A g c).bn0 0 = b.bn0 := BNorm.rms_zero _ _ _
  have e1 : (b.line ρ ε A g c).bn1 0 = b.bn1 := BNorm.rms_zero _ _ _
  have e2 : (b.line ρ ε A g c).bn2 0 = b.bn2 := BNorm.rms_zero _ _ _
  have e3 : (b.line ρ ε A g c).down 0 = b.down := Lin.rms_zero _ _ _
  have e4 : (b.line ρ ε A g c).conv.at 0 = b.conv := by
    change (b.conv.line ρ ε A.conv g.conv).at 0 = _
    rw [b.conv.line_at 0 _ _ hf.conv hg.1, NetConv.rms_zero]
  refine ⟨by rw [e0]; exact h.bn0, by rw [e0, e1, e3]; exact h.bn1, b.conv.line_smooth a _ _ hf.conv hg.1 h.conv,
    by rw [e0, e1, e2, e3, e4]; exact h.bn2, h.pool, fun p hp s hs => ?_⟩
  rw [b.line_at 0 _ _ hf hg, NetBlock.rms_zero] at hs
  have h2 := hf.proj
  have h3 := hg.2
  have h4 := fun p hp => h.proj p hp s hs
  simp only [NetBlock.line] at hp
  clear hs e0 e1 e2 e3 e4
  generalize b.proj = x at h2 h3 h4 hp
  generalize A.proj = y at h2 hp
  generalize g.proj = z at h3 hp
  match x, y, z, h2, h3, h4, hp with
  | none, none, none, _, _, _, hp => cases hp
  | some x, some y, some z, _, _, h4, hp =>
    obtain rfl := Option.some.inj hp
    have e : (fun η => BNorm.rms ρ ε η x.1 y.1 z.1) 0 = x.1 := BNorm.rms_zero _ _ _
    dsimp only at e ⊢
    rw [e]
    exact h4 x rfl

/-- The same for the levels; `cs` are their numbers of channels. -/
def levels40Off (E : NetEnv) (a : NonLin) (Ws : ℕ) : ℕ → (o : CloudObj (Fin (k + 2) → ℝ)) →
    (Fin o.c.n → ℕ → ℝ) → List (CloudObj (Fin (k + 2) → ℝ)) → List (Level40 (k + 2)) → List ((ℕ × ℕ) × (ℕ × ℕ)) → Prop
  | ci, o, f, o' :: os, l :: ls, c :: cs => l.strided.Off E a Ws ci c.1 o.c o'.c l.poolRadius l.poolRadius f ∧
      ∀ f1, l.strided.GpuRun E Ws o.c o'.c l.poolRadius l.poolRadius f (.ok f1) →
        l.block.Off E a Ws c.1.2 c.2 o'.c o'.c l.convRadius 0 f1 ∧
        ∀ f2, l.block.GpuRun E Ws o'.c o'.c l.convRadius 0 f1 (.ok f2) → levels40Off E a Ws c.2.2 o' f2 os ls cs
  | _, _, _, _, _, _ => True

/-- No activation function of the network is evaluated at its kink, maxima are attained once and no probability is at a bound
of the clipping, whatever the schedule. -/
def Net40.Off (E : NetEnv) (a : NonLin) (Ws : ℕ) (c0 : ℕ) (b0 : ℕ × ℕ) (cs : List ((ℕ × ℕ) × (ℕ × ℕ))) (ce c1 C : ℕ) (e : ℝ)
    (m1 m2 : ∀ n, Fin n → ℕ → ℝ) (N : Net40 (k + 2)) (clouds : List (CloudObj (Fin (k + 2) → ℝ))) (feats : List (List (ℕ → ℝ))) : Prop :=
  ∀ o o1 os, clouds = o :: o1 :: os → ∀ f0, net40Init o1 feats = .ok f0 → N.init.Smooth a o1.c o1.c N.convRadius0 ∧
    ∀ f1, N.init.GpuCall E Ws o1.c o1.c N.convRadius0 f0 (.ok f1) →
      N.block0.Off E a Ws c0 b0 o1.c o1.c N.convRadius0 0 f1 ∧
      ∀ f2, N.block0.GpuRun E Ws o1.c o1.c N.convRadius0 0 f1 (.ok f2) →
        levels40Off E a Ws b0.2 o1 f2 os N.levels cs ∧
        ∀ oE fE, gpuNet40Loop E Ws o1 f2 os N.levels (.ok ⟨oE, fE⟩) →
          N.head.Off ce c1 C e (m1 _) (m2 _) (pooled40 oE fE) (N.head.run40 E (pooled40 oE fE))

theorem levels40Line_smooth (E : NetEnv) (a : NonLin) (Ws : ℕ) (ce : ℕ) :
    ∀ (ls As : List (Level40 (k + 2))) (cs : List ((ℕ × ℕ) × (ℕ × ℕ))) (gs : List (BlockGrads × BlockGrads)) (ci : ℕ)
      (os : List (CloudObj (Fin (k + 2) → ℝ))) (o : CloudObj (Fin (k + 2) → ℝ)) (f : Fin o.c.n → ℕ → ℝ),
      levels40RmsFit ce ci ls As cs → Levels40Shape ls gs →
      levels40Off E a Ws ci o f os ls cs → levels40Smooth E a Ws 0 ci o f os (levels40Line ρ ε ls As gs cs) := by
  intro ls
  induction ls with
  | nil =>
    intro As cs gs ci os o f hf hg h
    cases hg
    match As, cs, hf with
    | [], [], hf =>
      match os with
      | [] => trivial
      | _ :: _ => trivial
  | cons l ls ih =>
    intro As cs gs ci os o f hf hg h
    cases hg with
    | cons hg hgs =>
    rename_i g gs
    match As, cs, hf with
    | A :: As, c :: cs, ⟨⟨f1, f2, f3, f4, f5⟩, hfs⟩ =>
      match os, h with
      | [], h => trivial
      | o' :: os, h =>
        rw [levels40Off] at h
        rw [levels40Line, levels40Smooth]
        refine ⟨l.strided.line_smooth E a Ws _ _ f3 hg.1 h.1, fun r hr => ?_⟩
        rw [l.strided.line_at 0 _ _ f3 hg.1, NetBlock.rms_zero] at hr
        obtain ⟨q1, q2⟩ := h.2 r hr
        refine ⟨l.block.line_smooth E a Ws _ _ f5 hg.2 q1, fun r2 hr2 => ?_⟩
        rw [l.block.line_at 0 _ _ f5 hg.2, NetBlock.rms_zero] at hr2
        exact ih As cs gs c.2.2 os o' _ hfs hgs (q2 r2 hr2)

/-- **C162, residual network**: the same for the network of modelnet40.py. -/
theorem C162_net40_partial (h0 : 0 ≤ ρ) (h1 : ρ ≤ 1) (hε : 0 < ε) (hk : k ≤ 1) (E : NetEnv) (a : NonLin) (hE : E.act = a.fwd)
    (m1 m2 : ∀ n, Fin n → ℕ → ℝ) (hM : ∀ n, TrainEnvOk E (m1 n) (m2 n)) {Ws : ℕ} (hW : 0 < Ws) (N A : Net40 (k + 2)) (ci c0 : ℕ)
    (b0 : ℕ × ℕ) (cs : List ((ℕ × ℕ) × (ℕ × ℕ))) (ce c1 C : ℕ) (hN : N.RmsFits ci A c0 b0 cs ce c1)
    (e : ℝ) (he : 0 < e) (he' : e < 1 / 2) (clouds : List (CloudObj (Fin (k + 2) → ℝ))) (hc : ∀ p ∈ clouds, GpuCloud Ws p.c)
    (feats : List (List (ℕ → ℝ))) (labels : List ℕ) (hlab : ∀ l ∈ labels, l < C) (loss : ℝ) (g : Grads40)
    (ht : N.GpuTrainStep E a Ws c0 b0 cs c1 C e m1 m2 clouds feats labels loss g)
    (hs : N.Off E a Ws c0 b0 cs ce c1 C e m1 m2 clouds feats) (hg : ∃ x ∈ N.nums ci c0 b0 cs ce c1 C g, x ≠ 0) :
    ∃ δ > 0, ∀ η, 0 < η → η < δ → ∀ l, (N.rms ρ ε η A g).GpuLoss E Ws C e clouds feats labels l → l < loss := by
  have hloss := ht.loss
  have hshape : ConvShape N.init g.init ∧ BlockShape N.block0 g.block0 ∧ Levels40Shape N.levels g.levels := by
    clear hs hloss
    unfold Net40.GpuTrainStep at ht
    match clouds, ht with
    | o :: o1 :: os, ht =>
      dsimp only at ht
      cases hf0 : net40Init o1 feats with
      | error er => rw [hf0] at ht; exact ht.elim
      | ok f0 =>
        rw [hf0] at ht
        obtain ⟨f1, f2, G1, G2, fG, oE, fE, lab, gi, g0, gs, hg, _, t1, t2, _, _, _, t3, rfl⟩ := ht
        exact ⟨t3.shape, t1.shape, gpu40Train_shape E a Ws _ _ _ _ _ _ _ _ _ _ t2⟩
  obtain ⟨hsi, hsb, hsl⟩ := hshape
  obtain ⟨i1, i2, i3, i4⟩ := levels40Line_spec (ρ := ρ) (ε := ε) h0 h1 hε ce _ _ _ _ _ hN.levels hsl
  have hd : Down ((N.line ρ ε A g c0 b0 cs ce c1 C).pairing 0 ci g) (N.nums ci c0 b0 cs ce c1 C g) :=
    (((N.init.line_down h0 h1 hε _ _ hN.init hsi).add (N.block0.line_down h0 h1 hε _ _ hN.block0 hsb)).add i4).add
      (N.head.rms_down h0 h1 hε _ _ _ _ _)
  have hat : ∀ η, (N.line ρ ε A g c0 b0 cs ce c1 C).at η = N.rms ρ ε η A g := by
    intro η
    simp only [Curve40.at, Net40.line, Net40.rms, i1, N.init.line_at η _ _ hN.init hsi, N.block0.line_at η _ _ hN.block0 hsb]
  have hsm : (N.line ρ ε A g c0 b0 cs ce c1 C).Smooth E a Ws 0 e m1 m2 clouds feats := by
    intro o o1 os ec f0 hf0
    obtain ⟨q1, q2⟩ := hs o o1 os ec f0 hf0
    refine ⟨N.init.line_smooth a _ _ hN.init hsi q1, fun f1 hf1 => ?_⟩
    have ei : (N.line ρ ε A g c0 b0 cs ce c1 C).init.at 0 = N.init := by
      change (N.init.line ρ ε A.init g.init).at 0 = _
      rw [N.init.line_at 0 _ _ hN.init hsi, NetConv.rms_zero]
    rw [ei] at hf1
    obtain ⟨q3, q4⟩ := q2 f1 hf1
    refine ⟨N.block0.line_smooth E a Ws _ _ hN.block0 hsb q3, fun f2 hf2 => ?_⟩
    have eb : (N.line ρ ε A g c0 b0 cs ce c1 C).block0.at 0 = N.block0 := by
      change (N.block0.line ρ ε A.block0 g.block0 b0).at 0 = _
      rw [N.block0.line_at 0 _ _ hN.block0 hsb, NetBlock.rms_zero]
    rw [eb] at hf2
    obtain ⟨q5, q6⟩ := q4 f2 hf2
    refine ⟨levels40Line_smooth E a Ws ce _ _ _ _ _ _ _ _ hN.levels hsl q5, fun oE fE h => ?_⟩
    rw [hat, Net40.rms_zero] at h
    have eh : (N.line ρ ε A g c0 b0 cs ce c1 C).head 0 = N.head := NetHead.rms_zero _ _ _
    rw [eh]
    exact q6 oE fE h
  have hneg : (N.line ρ ε A g c0 b0 cs ce c1 C).pairing 0 ci g < 0 := by
    refine lt_of_le_of_ne hd.1 fun h => ?_
    obtain ⟨x, hx, hx0⟩ := hg
    exact hx0 (hd.2 h x hx)
  have hrun : ∀ η, ∃ l, (N.rms ρ ε η A g).GpuLoss E Ws C e clouds feats labels l := fun η =>
    N.like_runs E hW (N.rms ρ ε η A g) rfl hN.radius (N.init.rms_ready η _ _ hN.init) ⟨rfl, N.block0.conv.rms_ready η _ _ hN.block0.conv⟩
      (levels40Rms_like (ρ := ρ) (ε := ε) η ce _ _ _ _ _ hN.levels hsl) C e clouds hc feats labels hloss
  refine lower_of_runs hrun hneg fun f hf hfr => ?_
  refine C161_net40_partial hk E a hE m1 m2 hM hW 0 (N.line ρ ε A g c0 b0 cs ce c1 C) ci ⟨N.init.line_moves _ _ hN.init hsi,
    N.block0.line_moves _ _ hN.block0 hsb, hN.plain, hN.radius, i3, N.head.rms_moves _ _ _ hN.head⟩ e he he'
    clouds hc feats labels hlab hsm f (fun η hη => by rw [hat]; exact hfr η hη) g ?_
  rw [hat, Net40.rms_zero, hf]
  have : (N.line ρ ε A g c0 b0 cs ce c1 C).levels.map Level40Curve.chans = cs := i2
  rw [this]
  exact ht

end

/-! ### The hypotheses can be met -/

theorem softmaxRow_half (x : ℕ → ℝ) (hx : ∀ j < 2, x j = x 0) {j : ℕ} (hj : j < 2) : softmaxRow 2 x j = 1 / 2 := by
  unfold softmaxRow
  rw [Finset.sum_range_succ, Finset.sum_range_one, hx 1 (by omega), hx j hj]
  have := (Real.exp_pos (x 0)).ne'
  field_simp
  norm_num

/-- If both classes are equally likely, the gradient of the score of the right one is half the weight of the row. -/
theorem ceGrad_half (x : ℕ → ℝ) (hx : ∀ j < 2, x j = x 0) (g : ℝ) : ceGrad 2 (1 / 10 ^ 7) x 0 g 0 = -g / 2 := by
  have hp : ∀ j < 2, softmaxRow 2 x j = 1 / 2 := fun j hj => softmaxRow_half x hx hj
  have hc : clipProb (1 / 10 ^ 7) (1 / 2 : ℝ) = 1 / 2 := by
    unfold clipProb
    rw [min_eq_left (by norm_num), max_eq_left (by norm_num)]
  have hl : ∀ j < 2, softmaxRow 2 (fun j => Real.log (clipProb (1 / 10 ^ 7) (softmaxRow 2 x j))) j = 1 / 2 :=
    fun j hj => softmaxRow_half _ (fun i hi => by rw [hp i hi, hp 0 (by omega)]) hj
  unfold ceGrad
  dsimp only
  have hm : (1 / 2 : ℝ) ≤ 1 - 1 / 10 ^ 7 ∧ 1 / 10 ^ 7 ≤ min (1 / 2 : ℝ) (1 - 1 / 10 ^ 7) := by
    rw [min_eq_left (by norm_num)]
    norm_num
  rw [Finset.sum_range_succ, Finset.sum_range_one, hl 0 (by omega), hl 1 (by omega), hp 0 (by omega), hp 1 (by omega), hc, if_pos hm,
    if_pos hm, if_pos rfl, if_neg (by omega)]
  ring

theorem exSmall_off : (exSmallCurve.at 0).Off (k := 0) exTrainEnv .elu 1 [(1, 1)] 1 1 2 (1 / 10 ^ 7) (fun _ _ _ => 2) (fun _ _ _ => 2)
    [exO3, exO2, exO2] [[fun _ => 1, fun _ => 2], [fun _ => 3, fun _ => 0]] := by
  intro o os e f0 hf
  obtain ⟨q1, q2⟩ := exSmallCurve_smooth o os e f0 hf
  refine ⟨?_, q2⟩
  obtain ⟨rfl, rfl⟩ := List.cons.inj e
  exact ⟨exConvCurve_smooth _ _, fun r hr => ⟨(q1.2 r hr).1, (q1.2 r hr).2.1, exConvCurve_smooth _ _⟩⟩

theorem exSmall_fits : (exSmallCurve.at 0).RmsFits 1 (exSmallCurve.at 0) [(1, 1)] 1 1 := by
  refine ⟨⟨⟨one_pos, ?_, one_pos, rfl, one_pos⟩, ?_⟩, one_pos, one_pos, rfl, one_pos, rfl⟩
  · exact ⟨rfl, rfl, one_ne_zero, one_dvd _, by simp [exConvCurve], rfl, by decide, by decide⟩
  · exact ⟨rfl, rfl, one_ne_zero, one_dvd _, by simp [exConvCurve], rfl, by decide, by decide⟩

/-- The gradient of the bias of the last layer is not zero if all labels are equal. -/
theorem exBias (n : ℕ) (hn : 0 < n) (lab : Fin n → ℕ) (hlab : ∀ i, lab i = 0) (x : Fin n → ℕ → ℝ) (hx : ∀ i j, x i j = 0) (h : NetHead)
    (f : Fin n → ℕ → ℝ) : (h.dense2.grad 2 f (trainLossGrad 2 (1 / 10 ^ 7) lab x)).b 0 ≠ 0 := by
  have hn' : (n : ℝ) ≠ 0 := by exact_mod_cast hn.ne'
  have e : (h.dense2.grad 2 f (trainLossGrad 2 (1 / 10 ^ 7) lab x)).b 0 = -1 / 2 := by
    simp only [Lin.grad, trainLossGrad, hlab]
    rw [Finset.sum_congr rfl (fun i _ => ceGrad_half (x i) (fun j _ => by rw [hx, hx]) (1 / (n : ℝ)))]
    rw [Finset.sum_const, Finset.card_univ, Fintype.card_fin, nsmul_eq_mul]
    field_simp
  rw [e]
  norm_num

theorem mem_headNums (c0 c1 : ℕ) {n : ℕ} (g : HeadGrads n) : g.dense2.b 0 ∈ headNums c0 c1 2 g := by
  refine List.mem_append_right _ (List.mem_append_right _ ?_)
  exact mem_vecNums (by omega)

example : ∃ loss g, (exSmallCurve.at 0).GpuTrainStep (k := 0) exTrainEnv .elu 1 [(1, 1)] 1 1 2 (1 / 10 ^ 7) (fun _ _ _ => 2) (fun _ _ _ => 2)
      [exO3, exO2, exO2] [[fun _ => 1, fun _ => 2], [fun _ => 3, fun _ => 0]] [0, 0] loss g ∧
    ∃ δ > 0, ∀ η, 0 < η → η < δ → ∀ l, ((exSmallCurve.at 0).rms (9 / 10) (1 / 10 ^ 7) η (exSmallCurve.at 0) g).GpuLoss (k := 0) exTrainEnv 1 2
      (1 / 10 ^ 7) [exO3, exO2, exO2] [[fun _ => 1, fun _ => 2], [fun _ => 3, fun _ => 0]] [0, 0] l → l < loss := by
  obtain ⟨_, logits, q1, q2, _⟩ := exLoss_runs 0
  obtain ⟨g, hg⟩ := C160_runs (k := 0) exTrainEnv .elu (fun _ _ _ => 2) (fun _ _ _ => 2) one_pos (exSmallCurve.at 0) one_pos
    (by simp [exSmallCurve, SmallCurve.at, LevelCurve.at]) [(1, 1)] rfl 1 1 2 _ _ exClouds _ [0, 0] _ ⟨logits, q1, q2, rfl⟩
  refine ⟨_, g, hg, C162_small_partial (k := 0) (by norm_num) (by norm_num) (by norm_num) (by omega) exTrainEnv .elu rfl _ _
    (fun n => ⟨rfl, rfl, rfl, rfl⟩) one_pos (exSmallCurve.at 0) (exSmallCurve.at 0) 1 [(1, 1)] 1 1 2 exSmall_fits _ (by norm_num)
    (by norm_num) _ exClouds _ _ (by simp) _ g hg exSmall_off ⟨g.head.dense2.b 0, ?_, ?_⟩⟩
  · exact List.mem_append_right _ (mem_headNums _ _ _)
  · unfold NetSmall.GpuTrainStep at hg
    dsimp only at hg
    cases hf0 : (exO3.flattenFeatures [[fun _ : ℕ => (1 : ℝ), fun _ => 2], [fun _ => 3, fun _ => 0]]).1 with
    | error er => rw [hf0] at hg; exact hg.elim
    | ok f0 =>
      rw [hf0] at hg
      obtain ⟨n, out, lab, gs, gl, fG, h, e1, _, rfl, _, rfl⟩ := hg
      have hn : n = 2 := by
        have := congrArg List.length e1
        rw [List.length_ofFn] at this
        exact this.symm
      subst hn
      refine exBias 2 (by omega) lab (fun i => ?_) _ (fun i j => ?_) _ _
      · have : lab i ∈ [0, 0] := by rw [e1]; exact List.mem_ofFn.mpr ⟨i, rfl⟩
        simpa using this
      · simp only [NetHead.runSmall, Lin.apply, conv1x1, exSmallCurve, SmallCurve.at, Finset.sum_range_one]
        split <;> simp

theorem exBlock_off (ci co : ℕ) (st : Bool) {cin cout : Cloud (Fin 2 → ℝ)} (h1 : cin.n ≤ 99) (h2 : cout.n ≤ 99) (cR pR : ℝ)
    (f : Fin cin.n → ℕ → ℝ) (hm : st = true → MaxOnce (k := 0) cin cout pR ci f) :
    ((exBlockCurve ci co st).at 0).Off (k := 0) exTrainEnv .elu 1 ci (1, co) cin cout cR pR f := by
  obtain ⟨s1, s2, s3, s4, s5, _⟩ := exBlockCurve_smooth ci co st h1 h2 cR pR f hm
  refine ⟨s1, s2, exConv_smooth _ _ _, s4, s5, fun p hp s _ i ch _ => ?_⟩
  by_cases hne : ci = co
  · simp [exBlockCurve, BlockCurve.at, hne] at hp
  · simp only [exBlockCurve, BlockCurve.at, hne, if_false, Option.map_some, Option.some.injEq] at hp
    subst hp
    exact bn_large_ne (exBn 0) h2 _ ch rfl rfl one_pos i

theorem exNet40_off : (exCurve40.at 0).Off (k := 0) exTrainEnv .elu 1 1 (1, 1) [((1, 2), (1, 2))] 2 1 2 (1 / 10 ^ 7) (fun _ _ _ => 2)
    (fun _ _ _ => 2) [exO3, exO3, exO2] [[fun _ => 1, fun _ => 2], [fun _ => 3, fun _ => 0]] := by
  intro o o1 os e f0 hf
  obtain ⟨q1, q2⟩ := exCurve40_smooth o o1 os e f0 hf
  obtain ⟨rfl, e'⟩ := List.cons.inj e
  obtain ⟨rfl, rfl⟩ := List.cons.inj e'
  have n3 : exO3.c.n ≤ 99 := by norm_num [exO3]
  have n2 : exO2.c.n ≤ 99 := by norm_num [exO2]
  exact ⟨exConv_smooth _ _ _, fun f1 hf1 => ⟨exBlock_off _ _ _ n3 n3 _ _ _ (fun h => by cases h), fun f2 hf2 =>
    ⟨⟨exBlock_off _ _ _ n3 n2 _ _ _ (fun _ => exMaxOnce _), fun f3 _ => ⟨exBlock_off _ _ _ n2 n2 _ _ _ (fun h => by cases h),
      fun _ _ => trivial⟩⟩, ((q2 f1 hf1).2 f2 hf2).2⟩⟩⟩

theorem exBlock_fits (ci co : ℕ) (st : Bool) : ((exBlockCurve ci co st).at 0).RmsFits ci ((exBlockCurve ci co st).at 0) (1, co) := by
  refine ⟨one_pos, rfl, one_pos, ⟨rfl, rfl, one_ne_zero, one_dvd _, by simp, rfl, by decide,
    (by decide : opFeaturesOk 1 = true)⟩, one_pos, rfl, ?_⟩
  by_cases hne : ci = co
  · simp [exBlockCurve, BlockCurve.at, hne, projFits]
  · simp only [exBlockCurve, BlockCurve.at, hne, if_false, Option.map_some, projFits]
    exact ⟨one_pos, trivial⟩

theorem exNet40_fits : (exCurve40.at 0).RmsFits 1 (exCurve40.at 0) 1 (1, 1) [((1, 2), (1, 2))] 2 1 :=
  ⟨⟨rfl, rfl, one_ne_zero, one_dvd _, by simp, rfl, by decide, by decide⟩, exBlock_fits _ _ _, rfl, one_pos,
    ⟨⟨by norm_num [exCurve40, Level40Curve.at], one_pos, exBlock_fits _ _ _, rfl, exBlock_fits _ _ _⟩, rfl⟩, one_pos, rfl, one_pos, rfl⟩

example : ∃ loss g, (exCurve40.at 0).GpuTrainStep (k := 0) exTrainEnv .elu 1 1 (1, 1) [((1, 2), (1, 2))] 1 2 (1 / 10 ^ 7) (fun _ _ _ => 2)
      (fun _ _ _ => 2) [exO3, exO3, exO2] [[fun _ => 1, fun _ => 2], [fun _ => 3, fun _ => 0]] [0, 0] loss g ∧
    ∃ δ > 0, ∀ η, 0 < η → η < δ → ∀ l, ((exCurve40.at 0).rms (9 / 10) (1 / 10 ^ 7) η (exCurve40.at 0) g).GpuLoss (k := 0) exTrainEnv 1 2
      (1 / 10 ^ 7) [exO3, exO3, exO2] [[fun _ => 1, fun _ => 2], [fun _ => 3, fun _ => 0]] [0, 0] l → l < loss := by
  obtain ⟨_, logits, q1, q2, _⟩ := exLoss40_runs 0
  obtain ⟨g, hg⟩ := C161_runs (k := 0) exTrainEnv .elu (fun _ _ _ => 2) (fun _ _ _ => 2) one_pos (exCurve40.at 0) one_pos rfl
    (by simp [exCurve40, Curve40.at, Level40Curve.at, exBlockCurve, BlockCurve.at]) 1 (1, 1) [((1, 2), (1, 2))] rfl 1 2 _ _ exClouds40 _ [0, 0] _
    ⟨logits, q1, q2, rfl⟩
  refine ⟨_, g, hg, C162_net40_partial (k := 0) (by norm_num) (by norm_num) (by norm_num) (by omega) exTrainEnv .elu rfl _ _
    (fun n => ⟨rfl, rfl, rfl, rfl⟩) one_pos (exCurve40.at 0) (exCurve40.at 0) 1 1 (1, 1) [((1, 2), (1, 2))] 2 1 2 exNet40_fits _ (by norm_num)
    (by norm_num) _ exClouds40 _ _ (by simp) _ g hg exNet40_off ⟨g.head.dense2.b 0, ?_, ?_⟩⟩
  · exact List.mem_append_right _ (mem_headNums _ _ _)
  · unfold Net40.GpuTrainStep at hg
    dsimp only at hg
    cases hf0 : net40Init exO3 [[fun _ : ℕ => (1 : ℝ), fun _ => 2], [fun _ => 3, fun _ => 0]] with
    | error er => rw [hf0] at hg; exact hg.elim
    | ok f0 =>
      rw [hf0] at hg
      obtain ⟨f1, f2, G1, G2, fG, oE, fE, lab, gi, g0, gs, h, t0, t1, t2, e1, _, rfl, t3, rfl⟩ := hg
      have hn : oE.c.B = 2 := by
        have := congrArg List.length e1
        rw [List.length_ofFn] at this
        exact this.symm
      refine exBias _ (by omega) lab (fun i => ?_) _ (fun i j => ?_) _ _
      · have : lab i ∈ [0, 0] := by rw [e1]; exact List.mem_ofFn.mpr ⟨i, rfl⟩
        simpa using this
      · simp only [NetHead.run40, Lin.apply, conv1x1, exCurve40, Curve40.at, Finset.sum_range_one]
        split <;> simp

end PC
