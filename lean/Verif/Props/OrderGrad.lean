import Verif.Props.OptimNet
import Verif.Props.Order

/-!
# The gradients of a training step do not depend on the order of the batch (C166)
-/

set_option linter.unusedVariables false
set_option linter.unusedSectionVars false

namespace PC

open Filter Topology

/-! ### Differences of gradients -/

/-- Differences of the gradients of the variables. -/
def LinGrads.sub {n m : ℕ} (g : LinGrads n) (h : LinGrads m) : LinGrads n := ⟨fun a o => g.w a o - h.w a o, fun o => g.b o - h.b o, g.x⟩
/-- Differences of the gradients of the variables. -/
def BnGrads.sub {n m : ℕ} (g : BnGrads n) (h : BnGrads m) : BnGrads n := ⟨fun ch => g.gamma ch - h.gamma ch, fun ch => g.beta ch - h.beta ch, g.x⟩
/-- Differences of the gradients of the variables. -/
def HeadGrads.sub {n m : ℕ} (g : HeadGrads n) (h : HeadGrads m) : HeadGrads n :=
  ⟨g.bn1.sub h.bn1, g.dense1.sub h.dense1, g.bn2.sub h.bn2, g.dense2.sub h.dense2⟩
/-- Differences of the gradients of the variables. -/
def mlpSub : List (MlpLayer ℝ) → List (MlpLayer ℝ) → List (MlpLayer ℝ)
  | g :: gs, h :: hs => ⟨g.size, fun mi i o => g.w mi i o - h.w mi i o, fun mi o => g.b mi o - h.b mi o⟩ :: mlpSub gs hs
  | _, _ => []
/-- Differences of the gradients of the variables. -/
def PcGrads.sub {P Q : ℕ} (g : PcGrads P) (h : PcGrads Q) : PcGrads P :=
  ⟨fun i b => g.axis i b - h.axis i b, fun b => g.bias b - h.bias b, fun i => g.pw1 i - h.pw1 i, fun i => g.pb1 i - h.pb1 i,
    fun i => g.pw2 i - h.pw2 i, g.pb2 - h.pb2, g.input, g.pdf⟩
/-- Differences of the gradients of the variables. -/
def ConvGrads.sub : ConvGrads → ConvGrads → ConvGrads
  | .mc g w, .mc g' w' => .mc (mlpSub g g') (fun mi t o => w mi t o - w' mi t o)
  | .pc P g w, .pc _ g' w' => .pc P (g.sub g') (fun t o => w t o - w' t o)
  | .kp w, .kp w' => .kp (fun t o => w t o - w' t o)
  | g, _ => g
/-- Differences of the gradients of the variables. -/
def LevelGrads.sub (g h : LevelGrads) : LevelGrads := ⟨g.n, g.conv.sub h.conv, g.bn1.sub h.bn1, g.lin.sub h.lin, g.bn2.sub h.bn2⟩
/-- Differences of the gradients of the variables. -/
def SmallGrads.sub (g h : SmallGrads) : SmallGrads :=
  ⟨List.zipWith LevelGrads.sub g.levels h.levels, g.last.sub h.last, g.n, g.head.sub h.head⟩
/-- Differences of the gradients of the variables. -/
def projSub {m m' : ℕ} : Option (BnGrads m × LinGrads m) → Option (BnGrads m' × LinGrads m') → Option (BnGrads m × LinGrads m)
  | some p, some q => some (p.1.sub q.1, p.2.sub q.2)
  | _, _ => none
/-- Differences of the gradients of the variables. -/
def BlockGrads.sub (g h : BlockGrads) : BlockGrads :=
  ⟨g.n, g.m, g.bn0.sub h.bn0, g.down.sub h.down, g.bn1.sub h.bn1, g.conv.sub h.conv, g.bn2.sub h.bn2, g.up.sub h.up, projSub g.proj h.proj⟩
/-- Differences of the gradients of the variables. -/
def Grads40.sub (g h : Grads40) : Grads40 :=
  ⟨g.init.sub h.init, g.block0.sub h.block0, List.zipWith (fun p q => (p.1.sub q.1, p.2.sub q.2)) g.levels h.levels, g.n, g.head.sub h.head⟩

/-! ### The derivative along the difference tells gradients apart -/

/-- `s` is at most `s'`, and equal only if the numbers are the same. -/
def Apart (s s' : ℝ) (l l' : List ℝ) : Prop := s ≤ s' ∧ (s = s' → l = l')

theorem Apart.zero : Apart 0 0 [] [] := ⟨le_rfl, fun _ => rfl⟩

theorem Apart.add {s s' t t' : ℝ} {l l' m m' : List ℝ} (h1 : Apart s s' l l') (h2 : Apart t t' m m') :
    Apart (s + t) (s' + t') (l ++ m) (l' ++ m') := by
  refine ⟨add_le_add h1.1 h2.1, fun h => ?_⟩
  have a1 := h1.1
  have a2 := h2.1
  rw [h1.2 (by linarith), h2.2 (by linarith)]

theorem Apart.sum (n : ℕ) (s s' : ℕ → ℝ) (l l' : ℕ → List ℝ) (h : ∀ i < n, Apart (s i) (s' i) (l i) (l' i)) :
    Apart (∑ i ∈ Finset.range n, s i) (∑ i ∈ Finset.range n, s' i) ((List.range n).flatMap l) ((List.range n).flatMap l') := by
  induction n with
  | zero => exact Apart.zero
  | succ n ih =>
    rw [Finset.sum_range_succ, Finset.sum_range_succ, List.range_succ, List.flatMap_append, List.flatMap_append]
    refine (ih fun i hi => h i (by omega)).add ?_
    simpa using h n (by omega)

section
variable {ρ ε : ℝ}

theorem Apart.one {ms : ℝ} (hε : 0 < ε) (x y : ℝ) : Apart (x * -rmsDir ρ ε ms (x - y)) (y * -rmsDir ρ ε ms (x - y)) [x] [y] := by
  have hd : 0 < √(rmsAcc ρ ms (x - y)) + ε := add_pos_of_nonneg_of_pos (Real.sqrt_nonneg _) hε
  have e : y * -rmsDir ρ ε ms (x - y) - x * -rmsDir ρ ε ms (x - y) = (x - y) ^ 2 / (√(rmsAcc ρ ms (x - y)) + ε) := by
    unfold rmsDir
    ring
  refine ⟨sub_nonneg.mp (e ▸ by positivity), fun h => ?_⟩
  rw [h, sub_self] at e
  rcases div_eq_zero_iff.mp e.symm with h | h
  · have := pow_eq_zero_iff (two_ne_zero) |>.mp h
    rw [sub_eq_zero.mp this]
  · exact absurd h hd.ne'

theorem Apart.vec (hε : 0 < ε) (n : ℕ) (ms g h : ℕ → ℝ) :
    Apart (∑ i ∈ Finset.range n, g i * -rmsDir ρ ε (ms i) (g i - h i)) (∑ i ∈ Finset.range n, h i * -rmsDir ρ ε (ms i) (g i - h i))
      (vecNums n g) (vecNums n h) :=
  Apart.sum n _ _ _ _ fun i _ => Apart.one hε _ _

theorem Apart.mat (hε : 0 < ε) (n m : ℕ) (ms g h : ℕ → ℕ → ℝ) :
    Apart (∑ i ∈ Finset.range n, ∑ o ∈ Finset.range m, g i o * -rmsDir ρ ε (ms i o) (g i o - h i o))
      (∑ i ∈ Finset.range n, ∑ o ∈ Finset.range m, h i o * -rmsDir ρ ε (ms i o) (g i o - h i o)) (matNums n m g) (matNums n m h) :=
  Apart.sum n _ _ _ _ fun i _ => Apart.vec hε m _ _ _

theorem Lin.apart (hε : 0 < ε) (l A : Lin) {n m : ℕ} (g : LinGrads n) (h : LinGrads m) (ci co : ℕ) :
    Apart (linPairing ci co g (l.rmsVel ρ ε A (g.sub h))) (linPairing ci co h (l.rmsVel ρ ε A (g.sub h))) (linNums ci co g)
      (linNums ci co h) :=
  (Apart.mat hε ci co A.w g.w h.w).add (Apart.vec hε co A.b g.b h.b)

theorem BNorm.apart (hε : 0 < ε) (bn A : BNorm) {n m : ℕ} (g : BnGrads n) (h : BnGrads m) (c : ℕ) :
    Apart (bnPairing c g (bn.rmsVel ρ ε A (g.sub h))) (bnPairing c h (bn.rmsVel ρ ε A (g.sub h))) (bnNums c g) (bnNums c h) :=
  Apart.sum c _ _ _ _ fun i _ => (Apart.one hε _ _).add (Apart.one hε _ _)

theorem NetHead.apart (hε : 0 < ε) (N A : NetHead) {n m : ℕ} (g : HeadGrads n) (h : HeadGrads m) (c0 c1 C : ℕ) :
    Apart (headPairing c0 c1 C g (N.rmsVel ρ ε A (g.sub h))) (headPairing c0 c1 C h (N.rmsVel ρ ε A (g.sub h))) (headNums c0 c1 C g)
      (headNums c0 c1 C h) :=
  (((N.bn1.apart hε _ _ _ _).add (N.dense1.apart hε _ _ _ _ _)).add (N.bn2.apart hε _ _ _ _)).add
    (N.dense2.apart hε _ _ _ _ _)

theorem mlpSub_length : ∀ {gs hs : List (MlpLayer ℝ)} {n : ℕ}, gs.length = n → hs.length = n → (mlpSub gs hs).length = n
  | [], [], n, h, _ => h
  | g :: gs, h :: hs, n + 1, h1, h2 => by
    simp only [mlpSub, List.length_cons, Nat.add_right_cancel_iff] at h1 h2 ⊢
    exact mlpSub_length h1 h2
  | g :: gs, [], n, h1, h2 => by
    simp only [List.length_cons, List.length_nil] at h1 h2
    omega
  | [], h :: hs, n, h1, h2 => by
    simp only [List.length_cons, List.length_nil] at h1 h2
    omega

theorem mlp_apart (hε : 0 < ε) (ml : ℕ) : ∀ (ls As gs hs : List (MlpLayer ℝ)) (prev : ℕ),
    As.length = ls.length → gs.length = ls.length → hs.length = ls.length →
    Apart (mlpPairing ml prev (mlpLine ρ ε ls As (mlpSub gs hs)) gs) (mlpPairing ml prev (mlpLine ρ ε ls As (mlpSub gs hs)) hs)
      (mlpNums ml prev ls gs) (mlpNums ml prev ls hs)
  | [], [], [], [], _, _, _, _ => Apart.zero
  | l :: ls, A :: As, g :: gs, h :: hs, prev, h0, h1, h2 => by
    simp only [List.length_cons, Nat.add_right_cancel_iff] at h0 h1 h2
    exact (Apart.sum ml _ _ _ _ fun mi _ => (Apart.mat hε prev l.size (A.w mi) (g.w mi) (h.w mi)).add
      (Apart.vec hε l.size (A.b mi) (g.b mi) (h.b mi))).add (mlp_apart hε ml ls As gs hs l.size h0 h1 h2)

variable {D : ℕ}

theorem ConvShape.sub {L : NetConv D} {g h : ConvGrads} (h1 : ConvShape L g) (h2 : ConvShape L h) : ConvShape L (g.sub h) := by
  match L, g, h, h1, h2 with
  | .mc L, .mc g w, .mc g' w', h1, h2 => exact mlpSub_length h1 h2
  | .pc _, .pc _ _ _, .pc _ _ _, _, _ => trivial
  | .kp _, .kp _, .kp _, _, _ => trivial

theorem NetConv.apart (hε : 0 < ε) {ci co : ℕ} (L A : NetConv D) (g h : ConvGrads) (hf : L.RmsFits ci co A)
    (hg : ConvShape L g) (hh : ConvShape L h) : Apart ((L.line ρ ε A (g.sub h)).pairing 0 ci co g)
      ((L.line ρ ε A (g.sub h)).pairing 0 ci co h) (L.nums ci co g) (L.nums ci co h) := by
  match L, A, g, h, hf, hg, hh with
  | .mc L, .mc A, .mc lG wG, .mc lH wH, ⟨a1, a2, a3, a4, a5, a6, a7, a8⟩, hg, hh =>
    have hd : (mlpSub lG lH).length = L.layers.length := mlpSub_length hg hh
    have ho : curveOut D (mlpLine ρ ε L.layers A.layers (mlpSub lG lH)) = L.hid := by
      rw [mlpLine_out _ _ _ _ a6 hd, MCLayer.hid]
      obtain ⟨x, hx⟩ := Option.ne_none_iff_exists'.mp (mt List.getLast?_eq_none_iff.mp a5)
      rw [hx]
      rfl
    unfold ConvGrads.sub NetConv.line ConvCurve.pairing NetConv.nums
    dsimp only
    rw [ho]
    exact (mlp_apart hε _ _ _ _ _ _ a6 hg hh).add (Apart.sum _ _ _ _ _ fun mi _ => Apart.mat hε _ _ (A.final mi) (wG mi) (wH mi))
  | .pc L, .pc A, .pc _ g w, .pc _ h v, hf, hg, hh =>
    exact ((((Apart.mat hε _ _ A.axis g.axis h.axis).add (Apart.vec hε _ A.bias g.bias h.bias)).add
      (Apart.sum 16 _ _ _ _ fun i _ => ((Apart.one hε _ _).add (Apart.one hε _ _)).add (Apart.one hε _ _))).add
      (Apart.one hε _ _)).add (Apart.mat hε _ _ A.weights w v)
  | .kp L, .kp A, .kp w, .kp v, hf, hg, hh => exact Apart.mat hε _ _ A.weights w v

theorem LevelsShape.sub : ∀ {ls : List (LevelSmall D)} {gs hs : List LevelGrads}, LevelsShape ls gs → LevelsShape ls hs →
    LevelsShape ls (List.zipWith LevelGrads.sub gs hs)
  | [], _, _, .nil, .nil => .nil
  | _ :: _, _, _, .cons h1 h2, .cons h3 h4 => .cons (h1.sub h3) (LevelsShape.sub h2 h4)

theorem levels_apart (hε : 0 < ε) (last lastA : NetConv D) (cl : ℕ) (gl hl : ConvGrads) (h1 : ConvShape last gl) (h2 : ConvShape last hl) :
    ∀ (ls As : List (LevelSmall D)) (cs : List (ℕ × ℕ)) (gs hs : List LevelGrads) (ci : ℕ), levelsRmsFit last lastA cl ci ls As cs →
      LevelsShape ls gs → LevelsShape ls hs →
      Apart (levelsPairing 0 (last.line ρ ε lastA (gl.sub hl)) cl ci (levelsLine ρ ε ls As (List.zipWith LevelGrads.sub gs hs) cs) gs gl)
        (levelsPairing 0 (last.line ρ ε lastA (gl.sub hl)) cl ci (levelsLine ρ ε ls As (List.zipWith LevelGrads.sub gs hs) cs) hs hl)
        (levelsNums last cl ci ls cs gs gl) (levelsNums last cl ci ls cs hs hl)
  | [], [], [], _, _, ci, hf, .nil, .nil => last.apart hε _ _ _ hf h1 h2
  | l :: ls, A :: As, c :: cs, _, _, ci, ⟨⟨f1, f2, f3, f4, f5⟩, hf⟩, .cons (b := g) (l₂ := gs) hg hgs, .cons (b := h) (l₂ := hs) hh hhs =>
    ((((l.conv.apart hε A.conv g.conv h.conv f2 hg hh).add (l.bn1.apart hε A.bn1 g.bn1 h.bn1 _)).add
      (l.lin.apart hε A.lin g.lin h.lin _ _)).add
        (l.bn2.apart hε A.bn2 g.bn2 h.bn2 _)).add (levels_apart hε last lastA cl gl hl h1 h2 ls As cs gs hs c.2 hf hgs hhs)

theorem BlockShape.sub {b : NetBlock D} {g h : BlockGrads} (h1 : BlockShape b g) (h2 : BlockShape b h) : BlockShape b (g.sub h) := by
  refine ⟨h1.1.sub h2.1, ?_⟩
  have h3 := h1.2
  have h4 := h2.2
  change _ = (projSub g.proj h.proj).isSome
  generalize b.proj = p at *
  generalize g.proj = x at *
  generalize h.proj = y at *
  match p, x, y, h3, h4 with
  | none, none, none, _, _ => rfl
  | some _, some _, some _, _, _ => rfl

theorem NetBlock.apart (hε : 0 < ε) {ci : ℕ} {c : ℕ × ℕ} (b A : NetBlock D) (g h : BlockGrads)
    (hf : b.RmsFits ci A c) (hg : BlockShape b g) (hh : BlockShape b h) : Apart ((b.line ρ ε A (g.sub h) c).pairing 0 ci g)
      ((b.line ρ ε A (g.sub h) c).pairing 0 ci h) (b.nums ci c g) (b.nums ci c h) := by
  refine ((((((b.bn0.apart hε A.bn0 g.bn0 h.bn0 _).add (b.down.apart hε A.down g.down h.down _ _)).add
    (b.bn1.apart hε A.bn1 g.bn1 h.bn1 _)).add
    (b.conv.apart hε A.conv g.conv h.conv hf.conv hg.1 hh.1)).add (b.bn2.apart hε A.bn2 g.bn2 h.bn2 _)).add
    (b.up.apart hε A.up g.up h.up _ _)).add ?_
  have h2 := hf.proj
  have h3 := hg.2
  have h4 := hh.2
  simp only [NetBlock.line, BlockGrads.sub]
  generalize b.proj = p at h2 h3 h4 ⊢
  generalize A.proj = q at h2 ⊢
  generalize g.proj = r at h3 ⊢
  generalize h.proj = r' at h4 ⊢
  match p, q, r, r', h2, h3, h4 with
  | none, none, none, none, _, _, _ => exact Apart.zero
  | some p, some q, some r, some r', _, _, _ => exact (p.1.apart hε q.1 r.1 r'.1 _).add (p.2.apart hε q.2 r.2 r'.2 _ _)

theorem Levels40Shape.sub : ∀ {ls : List (Level40 D)} {gs hs : List (BlockGrads × BlockGrads)}, Levels40Shape ls gs → Levels40Shape ls hs →
    Levels40Shape ls (List.zipWith (fun p q => (p.1.sub q.1, p.2.sub q.2)) gs hs)
  | [], _, _, .nil, .nil => .nil
  | _ :: _, _, _, .cons h1 h2, .cons h3 h4 => .cons ⟨h1.1.sub h3.1, h1.2.sub h3.2⟩ (Levels40Shape.sub h2 h4)

theorem levels40_apart (hε : 0 < ε) (ce : ℕ) :
    ∀ (ls As : List (Level40 D)) (cs : List ((ℕ × ℕ) × (ℕ × ℕ))) (gs hs : List (BlockGrads × BlockGrads)) (ci : ℕ),
      levels40RmsFit ce ci ls As cs → Levels40Shape ls gs → Levels40Shape ls hs →
      Apart (levels40Pairing 0 ci (levels40Line ρ ε ls As (List.zipWith (fun p q => (p.1.sub q.1, p.2.sub q.2)) gs hs) cs) gs)
        (levels40Pairing 0 ci (levels40Line ρ ε ls As (List.zipWith (fun p q => (p.1.sub q.1, p.2.sub q.2)) gs hs) cs) hs)
        (levels40Nums ci ls cs gs) (levels40Nums ci ls cs hs)
  | [], [], [], _, _, ci, hf, .nil, .nil => Apart.zero
  | l :: ls, A :: As, c :: cs, _, _, ci, ⟨⟨f1, f2, f3, f4, f5⟩, hf⟩, .cons (b := g) (l₂ := gs) hg hgs, .cons (b := h) (l₂ := hs) hh hhs =>
    ((l.strided.apart hε A.strided g.1 h.1 f3 hg.1 hh.1).add (l.block.apart hε A.block g.2 h.2 f5 hg.2 hh.2)).add
      (levels40_apart hε ce ls As cs gs hs c.2.2 hf hgs hhs)

end

section
variable {k : ℕ}

/-- The gradients of a training step have the shapes of the variables. -/
theorem NetSmall.GpuTrainStep.shape {E : NetEnv} {a : NonLin} {Ws : ℕ} {N : NetSmall (k + 2)} {cs : List (ℕ × ℕ)} {cl c1 C : ℕ} {e : ℝ}
    {m1 m2 : ∀ n, Fin n → ℕ → ℝ} {clouds : List (CloudObj (Fin (k + 2) → ℝ))} {feats : List (List (ℕ → ℝ))} {labels : List ℕ}
    {loss : ℝ} {g : SmallGrads} (ht : N.GpuTrainStep E a Ws cs cl c1 C e m1 m2 clouds feats labels loss g) :
    LevelsShape N.levels g.levels ∧ ConvShape N.last g.last := by
  unfold NetSmall.GpuTrainStep at ht
  match clouds, ht with
  | o :: os, ht =>
    dsimp only at ht
    cases hf0 : (o.flattenFeatures feats).1 with
    | error er => rw [hf0] at ht; exact ht.elim
    | ok f0 =>
      rw [hf0] at ht
      obtain ⟨n, out, lab, gs, gl, fG, hg, _, _, _, ht', rfl⟩ := ht
      exact gpuSmallTrain_shape E a Ws N cl _ _ _ _ _ _ _ _ _ _ _ ht'

/-- The gradients of a training step have the shapes of the variables. -/
theorem Net40.GpuTrainStep.shape {E : NetEnv} {a : NonLin} {Ws : ℕ} {N : Net40 (k + 2)} {c0 : ℕ} {b0 : ℕ × ℕ}
    {cs : List ((ℕ × ℕ) × (ℕ × ℕ))} {c1 C : ℕ} {e : ℝ}
    {m1 m2 : ∀ n, Fin n → ℕ → ℝ} {clouds : List (CloudObj (Fin (k + 2) → ℝ))} {feats : List (List (ℕ → ℝ))} {labels : List ℕ}
    {loss : ℝ} {g : Grads40} (ht : N.GpuTrainStep E a Ws c0 b0 cs c1 C e m1 m2 clouds feats labels loss g) :
    ConvShape N.init g.init ∧ BlockShape N.block0 g.block0 ∧ Levels40Shape N.levels g.levels := by
  unfold Net40.GpuTrainStep at ht
  match clouds, ht with
  | o :: o1 :: os, ht =>
    dsimp only at ht
    cases hf0 : net40Init o1 feats with
    | error er => rw [hf0] at ht; exact ht.elim
    | ok f0 =>
      rw [hf0] at ht
      obtain ⟨f1, f2, G1, G2, fG, oE, fE, lab, gi, g0, gs, hg, _, t1, t2, _, _, _, t3, rfl⟩ := ht
      exact ⟨t3.shape, t1.shape, gpu40Train_shape E a Ws _ _ _ _ _ _ _ _ _ _ t2⟩

/-- One value per learning rate, the given one at zero. -/
theorem choose_runs {R : ℝ → ℝ → Prop} (hex : ∀ η, ∃ y, R η y) (y₀ : ℝ) : ∃ f : ℝ → ℝ, f 0 = y₀ ∧ ∀ η, η ≠ 0 → R η (f η) := by
  classical
  choose f hf using hex
  refine ⟨fun η => if η = 0 then y₀ else f η, if_pos rfl, fun η hη => ?_⟩
  dsimp only
  rw [if_neg hη]
  exact hf η

/-- Everything that belongs to one training step except the network: the clouds of the hierarchy, features, labels and the
dropout factors, and what is assumed about it. -/
structure StepData (k : ℕ) where
  E : NetEnv
  m1 : ∀ n, Fin n → ℕ → ℝ
  m2 : ∀ n, Fin n → ℕ → ℝ
  clouds : List (CloudObj (Fin (k + 2) → ℝ))
  feats : List (List (ℕ → ℝ))
  labels : List ℕ

/-- What is assumed about a training step: training with the dropout factors, clouds that the kernels handle, valid labels. -/
structure StepData.Ok (S : StepData k) (a : NonLin) (Ws C : ℕ) : Prop where
  act : S.E.act = a.fwd
  train : ∀ n, TrainEnvOk S.E (S.m1 n) (S.m2 n)
  clouds : ∀ p ∈ S.clouds, GpuCloud Ws p.c
  labels : ∀ l ∈ S.labels, l < C

/-- Training steps at which all networks of the same sizes have the same loss have the same gradients. -/
theorem small_grads_eq (hk : k ≤ 1) (a : NonLin) {Ws : ℕ} (hW : 0 < Ws) (N : NetSmall (k + 2)) (ci : ℕ)
    (cs : List (ℕ × ℕ)) (cl c1 C : ℕ) (hN : N.RmsFits ci N cs cl c1) (e : ℝ) (he : 0 < e) (he' : e < 1 / 2)
    (S S' : StepData k) (hS : S.Ok a Ws C) (hS' : S'.Ok a Ws C) (loss loss' : ℝ) (g g' : SmallGrads)
    (ht : N.GpuTrainStep S.E a Ws cs cl c1 C e S.m1 S.m2 S.clouds S.feats S.labels loss g)
    (ht' : N.GpuTrainStep S'.E a Ws cs cl c1 C e S'.m1 S'.m2 S'.clouds S'.feats S'.labels loss' g')
    (hs : N.Off S.E a Ws cs cl c1 C e S.m1 S.m2 S.clouds S.feats)
    (hs' : N.Off S'.E a Ws cs cl c1 C e S'.m1 S'.m2 S'.clouds S'.feats)
    (same : ∀ (η : ℝ) (d : SmallGrads) l l', (N.rms 0 1 η N d).GpuLoss S.E Ws C e S.clouds S.feats S.labels l →
      (N.rms 0 1 η N d).GpuLoss S'.E Ws C e S'.clouds S'.feats S'.labels l' → l = l') :
    loss = loss' ∧ N.nums ci cs cl c1 C g = N.nums ci cs cl c1 C g' := by
  have h0 : (0 : ℝ) ≤ 0 := le_rfl
  have h1 : (0 : ℝ) ≤ 1 := zero_le_one
  have hε : (0 : ℝ) < 1 := one_pos
  have hloss := ht.loss
  have hloss' := ht'.loss
  obtain ⟨g1, g2⟩ := ht.shape
  obtain ⟨g1', g2'⟩ := ht'.shape
  have heq : loss = loss' := same 0 g _ _ (by rw [NetSmall.rms_zero]; exact hloss) (by rw [NetSmall.rms_zero]; exact hloss')
  refine ⟨heq, ?_⟩
  have hsh : LevelsShape N.levels (g.sub g').levels := g1.sub g1'
  have hsl : ConvShape N.last (g.sub g').last := g2.sub g2'
  obtain ⟨_, i2, i3, _⟩ := levelsLine_spec (ρ := 0) (ε := 1) h0 h1 hε N.last N.last cl (g.sub g').last hsl _ _ _ _ ci hN.levels hsh
  have hat : ∀ η, (N.line 0 1 N (g.sub g') cs cl c1 C).at η = N.rms 0 1 η N (g.sub g') :=
    N.line_at h0 h1 hε N (g.sub g') cs cl c1 C hN hsh hsl
  have hrun : ∀ η, ∃ l, (N.rms 0 1 η N (g.sub g')).GpuLoss S.E Ws C e S.clouds S.feats S.labels l := by
    intro η
    obtain ⟨r1, _, r2⟩ := levelsRms_like (ρ := 0) (ε := 1) η cl N.last N.last _ _ _ _ ci hN.levels hsh
    exact N.like_runs S.E hW (N.rms 0 1 η N (g.sub g')) rfl hN.radius (N.last.rms_ready η _ _ r2) r1 C e S.clouds hS.clouds S.feats
      S.labels hloss
  have hrun' : ∀ η, ∃ l, (N.rms 0 1 η N (g.sub g')).GpuLoss S'.E Ws C e S'.clouds S'.feats S'.labels l := by
    intro η
    obtain ⟨r1, _, r2⟩ := levelsRms_like (ρ := 0) (ε := 1) η cl N.last N.last _ _ _ _ ci hN.levels hsh
    exact N.like_runs S'.E hW (N.rms 0 1 η N (g.sub g')) rfl hN.radius (N.last.rms_ready η _ _ r2) r1 C e S'.clouds hS'.clouds S'.feats
      S'.labels hloss'
  have hcs : (N.line 0 1 N (g.sub g') cs cl c1 C).levels.map (fun l => (l.c1, l.c2)) = cs := i2
  obtain ⟨f, f0, hf⟩ := choose_runs hrun loss
  have hff : ∀ η, η ≠ 0 → (N.rms 0 1 η N (g.sub g')).GpuLoss S'.E Ws C e S'.clouds S'.feats S'.labels (f η) := by
    intro η hη
    obtain ⟨l, hl⟩ := hrun' η
    rw [same η _ _ _ (hf η hη) hl]
    exact hl
  have d1 : HasDerivAt f ((N.line 0 1 N (g.sub g') cs cl c1 C).pairing 0 ci g) 0 := by
    refine C160_small_partial hk S.E a hS.act S.m1 S.m2 hS.train hW 0 (N.line 0 1 N (g.sub g') cs cl c1 C) ci
      ⟨i3, hN.radius, N.head.rms_moves _ _ _ hN.head⟩ e he he' S.clouds hS.clouds S.feats S.labels hS.labels
      (N.line_smooth h0 h1 hε S.E a Ws N (g.sub g') cs cl c1 C hN hsh hsl e S.m1 S.m2 S.clouds S.feats hs) f
      (fun η hη => by rw [hat]; exact hf η hη) g ?_
    rw [hat, NetSmall.rms_zero, f0, hcs]
    exact ht
  have d2 : HasDerivAt f ((N.line 0 1 N (g.sub g') cs cl c1 C).pairing 0 ci g') 0 := by
    refine C160_small_partial hk S'.E a hS'.act S'.m1 S'.m2 hS'.train hW 0 (N.line 0 1 N (g.sub g') cs cl c1 C) ci
      ⟨i3, hN.radius, N.head.rms_moves _ _ _ hN.head⟩ e he he' S'.clouds hS'.clouds S'.feats S'.labels hS'.labels
      (N.line_smooth h0 h1 hε S'.E a Ws N (g.sub g') cs cl c1 C hN hsh hsl e S'.m1 S'.m2 S'.clouds S'.feats hs') f
      (fun η hη => by rw [hat]; exact hff η hη) g' ?_
    rw [hat, NetSmall.rms_zero, f0, hcs, heq]
    exact ht'
  exact ((levels_apart hε N.last N.last cl g.last g'.last g2 g2' _ _ _ _ _ ci hN.levels g1 g1').add
    (N.head.apart hε N.head g.head g'.head cl c1 C)).2 (d1.unique (𝕜 := ℝ) d2)

/-- The same for the residual network. -/
theorem net40_grads_eq (hk : k ≤ 1) (a : NonLin) {Ws : ℕ} (hW : 0 < Ws) (N : Net40 (k + 2)) (ci c0 : ℕ)
    (b0 : ℕ × ℕ) (cs : List ((ℕ × ℕ) × (ℕ × ℕ))) (ce c1 C : ℕ) (hN : N.RmsFits ci N c0 b0 cs ce c1) (e : ℝ) (he : 0 < e) (he' : e < 1 / 2)
    (S S' : StepData k) (hS : S.Ok a Ws C) (hS' : S'.Ok a Ws C) (loss loss' : ℝ) (g g' : Grads40)
    (ht : N.GpuTrainStep S.E a Ws c0 b0 cs c1 C e S.m1 S.m2 S.clouds S.feats S.labels loss g)
    (ht' : N.GpuTrainStep S'.E a Ws c0 b0 cs c1 C e S'.m1 S'.m2 S'.clouds S'.feats S'.labels loss' g')
    (hs : N.Off S.E a Ws c0 b0 cs ce c1 C e S.m1 S.m2 S.clouds S.feats)
    (hs' : N.Off S'.E a Ws c0 b0 cs ce c1 C e S'.m1 S'.m2 S'.clouds S'.feats)
    (same : ∀ (η : ℝ) (d : Grads40) l l', (N.rms 0 1 η N d).GpuLoss S.E Ws C e S.clouds S.feats S.labels l →
      (N.rms 0 1 η N d).GpuLoss S'.E Ws C e S'.clouds S'.feats S'.labels l' → l = l') :
    loss = loss' ∧ N.nums ci c0 b0 cs ce c1 C g = N.nums ci c0 b0 cs ce c1 C g' := by
  have h0 : (0 : ℝ) ≤ 0 := le_rfl
  have h1 : (0 : ℝ) ≤ 1 := zero_le_one
  have hε : (0 : ℝ) < 1 := one_pos
  have hloss := ht.loss
  have hloss' := ht'.loss
  obtain ⟨g1, g2, g3⟩ := ht.shape
  obtain ⟨g1', g2', g3'⟩ := ht'.shape
  have heq : loss = loss' := same 0 g _ _ (by rw [Net40.rms_zero]; exact hloss) (by rw [Net40.rms_zero]; exact hloss')
  refine ⟨heq, ?_⟩
  have hsi : ConvShape N.init (g.sub g').init := g1.sub g1'
  have hsb : BlockShape N.block0 (g.sub g').block0 := g2.sub g2'
  have hsl : Levels40Shape N.levels (g.sub g').levels := g3.sub g3'
  obtain ⟨i1, i2, i3, _⟩ := levels40Line_spec (ρ := 0) (ε := 1) h0 h1 hε ce _ _ _ _ _ hN.levels hsl
  have hat : ∀ η, (N.line 0 1 N (g.sub g') c0 b0 cs ce c1 C).at η = N.rms 0 1 η N (g.sub g') := by
    intro η
    simp only [Curve40.at, Net40.line, Net40.rms, i1, N.init.line_at η _ _ hN.init hsi, N.block0.line_at η _ _ hN.block0 hsb]
  have hrun : ∀ (T : StepData k), T.Ok a Ws C → ∀ l0, N.GpuLoss T.E Ws C e T.clouds T.feats T.labels l0 →
      ∀ η, ∃ l, (N.rms 0 1 η N (g.sub g')).GpuLoss T.E Ws C e T.clouds T.feats T.labels l := fun T hT l0 hl0 η =>
    N.like_runs T.E hW (N.rms 0 1 η N (g.sub g')) rfl hN.radius (N.init.rms_ready η _ _ hN.init)
      ⟨rfl, N.block0.conv.rms_ready η _ _ hN.block0.conv⟩
      (levels40Rms_like (ρ := 0) (ε := 1) η ce _ _ _ _ _ hN.levels hsl) C e T.clouds hT.clouds T.feats T.labels hl0
  have hcs : (N.line 0 1 N (g.sub g') c0 b0 cs ce c1 C).levels.map Level40Curve.chans = cs := i2
  have hsm : ∀ T : StepData k, N.Off T.E a Ws c0 b0 cs ce c1 C e T.m1 T.m2 T.clouds T.feats →
      (N.line 0 1 N (g.sub g') c0 b0 cs ce c1 C).Smooth T.E a Ws 0 e T.m1 T.m2 T.clouds T.feats := by
    intro T hs o o1 os ec f0 hf0
    obtain ⟨q1, q2⟩ := hs o o1 os ec f0 hf0
    refine ⟨N.init.line_smooth a _ _ hN.init hsi q1, fun f1 hf1 => ?_⟩
    have ei : (N.line 0 1 N (g.sub g') c0 b0 cs ce c1 C).init.at 0 = N.init := by
      change (N.init.line 0 1 N.init (g.sub g').init).at 0 = _
      rw [N.init.line_at 0 _ _ hN.init hsi, NetConv.rms_zero]
    rw [ei] at hf1
    obtain ⟨q3, q4⟩ := q2 f1 hf1
    refine ⟨N.block0.line_smooth T.E a Ws _ _ hN.block0 hsb q3, fun f2 hf2 => ?_⟩
    have eb : (N.line 0 1 N (g.sub g') c0 b0 cs ce c1 C).block0.at 0 = N.block0 := by
      change (N.block0.line 0 1 N.block0 (g.sub g').block0 b0).at 0 = _
      rw [N.block0.line_at 0 _ _ hN.block0 hsb, NetBlock.rms_zero]
    rw [eb] at hf2
    obtain ⟨q5, q6⟩ := q4 f2 hf2
    refine ⟨levels40Line_smooth T.E a Ws ce _ _ _ _ _ _ _ _ hN.levels hsl q5, fun oE fE h => ?_⟩
    rw [hat, Net40.rms_zero] at h
    have eh : (N.line 0 1 N (g.sub g') c0 b0 cs ce c1 C).head 0 = N.head := NetHead.rms_zero _ _ _
    rw [eh]
    exact q6 oE fE h
  obtain ⟨f, f0, hf⟩ := choose_runs (hrun S hS _ hloss) loss
  have hff : ∀ η, η ≠ 0 → (N.rms 0 1 η N (g.sub g')).GpuLoss S'.E Ws C e S'.clouds S'.feats S'.labels (f η) := by
    intro η hη
    obtain ⟨l, hl⟩ := hrun S' hS' _ hloss' η
    rw [same η _ _ _ (hf η hη) hl]
    exact hl
  have key : ∀ (T : StepData k), T.Ok a Ws C → ∀ gT, N.Off T.E a Ws c0 b0 cs ce c1 C e T.m1 T.m2 T.clouds T.feats →
      N.GpuTrainStep T.E a Ws c0 b0 cs c1 C e T.m1 T.m2 T.clouds T.feats T.labels loss gT →
      (∀ η, η ≠ 0 → (N.rms 0 1 η N (g.sub g')).GpuLoss T.E Ws C e T.clouds T.feats T.labels (f η)) →
      HasDerivAt f ((N.line 0 1 N (g.sub g') c0 b0 cs ce c1 C).pairing 0 ci gT) 0 := by
    intro T hT gT hoff hstep hruns
    refine C161_net40_partial hk T.E a hT.act T.m1 T.m2 hT.train hW 0 (N.line 0 1 N (g.sub g') c0 b0 cs ce c1 C) ci
      ⟨N.init.line_moves _ _ hN.init hsi,
      N.block0.line_moves _ _ hN.block0 hsb, hN.plain, hN.radius, i3, N.head.rms_moves _ _ _ hN.head⟩ e he he'
      T.clouds hT.clouds T.feats T.labels hT.labels (hsm T hoff) f (fun η hη => by rw [hat]; exact hruns η hη) gT ?_
    rw [hat, Net40.rms_zero, f0, hcs]
    exact hstep
  exact ((((N.init.apart hε N.init g.init g'.init hN.init g1 g1').add (N.block0.apart hε N.block0 g.block0 g'.block0 hN.block0 g2 g2')).add
    (levels40_apart hε ce _ _ _ _ _ _ hN.levels g3 g3')).add (N.head.apart hε N.head g.head g'.head ce c1 C)).2
      ((key S hS g hs ht hf).unique (𝕜 := ℝ) (key S' hS' g' hs' (heq ▸ ht') hff))

end

/-! ### Updates keep the sizes -/

section
variable {ρ ε : ℝ} {D k : ℕ}

theorem mlpRms_sizes (η : ℝ) : ∀ (ls As gs : List (MlpLayer ℝ)), (mlpRms ρ ε η ls As gs).map MlpLayer.size = ls.map MlpLayer.size
  | [], _, _ => by unfold mlpRms; rfl
  | _ :: _, [], _ => by unfold mlpRms; rfl
  | _ :: _, _ :: _, [] => by unfold mlpRms; rfl
  | l :: ls, A :: As, g :: gs => by
    simp only [mlpRms, List.map_cons, mlpRms_sizes η ls As gs]

theorem NetConv.rms_writes (η : ℝ) (L A : NetConv D) (g : ConvGrads) (w : ℕ) (h : L.Writes w) : (L.rms ρ ε η A g).Writes w := by
  unfold NetConv.rms
  split <;> exact h

theorem NetConv.rms_ok (η : ℝ) (L A : NetConv D) (g : ConvGrads) (h : L.Ok) : (L.rms ρ ε η A g).Ok := by
  unfold NetConv.rms
  split <;> exact h

theorem NetConv.rms_gpuOk (η : ℝ) (E : NetEnv) (L A : NetConv D) (g : ConvGrads) (h : L.GpuOk E) : (L.rms ρ ε η A g).GpuOk E := by
  unfold NetConv.rms
  split
  · rename_i L A lG wG
    have hh : (⟨L.cin, L.cout, L.mlps, mlpRms ρ ε η L.layers A.layers lG,
        fun mi t o => rmsVar ρ ε η (A.final mi t o) (wG mi t o) (L.final mi t o)⟩ : MCLayer ℝ).hid = L.hid := by
      unfold MCLayer.hid
      dsimp only
      rw [← List.getLast?_map, ← List.getLast?_map, mlpRms_sizes]
    exact ⟨h.1, h.2.1, by rw [hh]; exact h.2.2.1, h.2.2.2⟩
  · exact h
  · exact h
  · exact h

theorem levelsRms_all (η : ℝ) (P : LevelSmall D → Prop) (hP : ∀ l A g, P l → P (l.rms ρ ε η A g)) :
    ∀ (ls As : List (LevelSmall D)) (gs : List LevelGrads), (∀ l ∈ ls, P l) → ∀ l ∈ levelsRms ρ ε η ls As gs, P l
  | [], _, _, h => by unfold levelsRms; exact h
  | _ :: _, [], _, h => by unfold levelsRms; exact h
  | _ :: _, _ :: _, [], h => by unfold levelsRms; exact h
  | l :: ls, A :: As, g :: gs, h => by
    simp only [levelsRms, List.mem_cons, forall_eq_or_imp] at h ⊢
    exact ⟨hP _ _ _ h.1, levelsRms_all η P hP ls As gs h.2⟩

theorem NetSmall.rms_gpuOk (η : ℝ) (E : NetEnv) (N A : NetSmall (k + 2)) (g : SmallGrads) (h : N.GpuOk E) : (N.rms ρ ε η A g).GpuOk E where
  ok := ⟨⟨N.last.rms_ok η _ _ h.ok.last.1, h.ok.last.2⟩, levelsRms_all η (fun l => l.conv.Ok ∧ 0 < l.sampleRadius ∧ 0 < l.convRadius)
    (fun l A g h => ⟨l.conv.rms_ok η _ _ h.1, h.2⟩) _ _ _ h.ok.levels⟩
  last := N.last.rms_gpuOk η E _ _ h.last
  levels := levelsRms_all η (fun l => l.conv.GpuOk E) (fun l A g h => l.conv.rms_gpuOk η E _ _ h) _ _ _ h.levels
  fits := ⟨levelsRms_all η (fun l => l.conv.Writes l.lin.cin) (fun l A g h => l.conv.rms_writes η _ _ _ h) _ _ _ h.fits.1,
    N.last.rms_writes η _ _ _ h.fits.2⟩

theorem NetBlock.rms_fits (η : ℝ) (b A : NetBlock D) (g : BlockGrads) (win wout : ℕ) (h : b.Fits win wout) :
    (b.rms ρ ε η A g).Fits win wout := by
  obtain ⟨h1, h2, h3⟩ := h
  refine ⟨h1, b.conv.rms_writes η _ _ _ h2, ?_⟩
  change match projRms ρ ε η b.proj A.proj g.proj with
    | none => wout ≤ win
    | some (_, l) => l.cin ≤ win
  generalize b.proj = p at h3 ⊢
  generalize A.proj = q
  generalize g.proj = r
  match p, q, r, h3 with
  | none, _, _, h3 => exact h3
  | some p, none, _, h3 => exact h3
  | some p, some q, none, h3 => exact h3
  | some p, some q, some r, h3 => exact h3

theorem levels40Rms_all (η : ℝ) (P : Level40 D → Prop) (hP : ∀ (l A : Level40 D) (g : BlockGrads × BlockGrads), P l →
    P ⟨l.strided.rms ρ ε η A.strided g.1, l.block.rms ρ ε η A.block g.2, l.poolRadius, l.convRadius⟩) :
    ∀ (ls As : List (Level40 D)) (gs : List (BlockGrads × BlockGrads)), (∀ l ∈ ls, P l) → ∀ l ∈ levels40Rms ρ ε η ls As gs, P l
  | [], _, _, h => by unfold levels40Rms; exact h
  | _ :: _, [], _, h => by unfold levels40Rms; exact h
  | _ :: _, _ :: _, [], h => by unfold levels40Rms; exact h
  | l :: ls, A :: As, g :: gs, h => by
    simp only [levels40Rms, List.mem_cons, forall_eq_or_imp] at h ⊢
    exact ⟨hP _ _ _ h.1, levels40Rms_all η P hP ls As gs h.2⟩

theorem levels40Rms_fit (η : ℝ) (wout : ℕ) : ∀ (ls As : List (Level40 D)) (gs : List (BlockGrads × BlockGrads)) (w : ℕ),
    levelsFit w ls wout → levelsFit w (levels40Rms ρ ε η ls As gs) wout
  | [], _, _, _, h => by unfold levels40Rms; exact h
  | _ :: _, [], _, _, h => by unfold levels40Rms; exact h
  | _ :: _, _ :: _, [], _, h => by unfold levels40Rms; exact h
  | l :: ls, A :: As, g :: gs, w, h => by
    obtain ⟨w1, w2, h1, h2, h3⟩ := h
    exact ⟨w1, w2, l.strided.rms_fits η _ _ _ _ h1, l.block.rms_fits η _ _ _ _ h2, levels40Rms_fit η wout ls As gs w2 h3⟩

theorem Net40.rms_gpuOk (η : ℝ) (E : NetEnv) (N A : Net40 (k + 2)) (g : Grads40) (h : N.GpuOk E) : (N.rms ρ ε η A g).GpuOk E where
  ok := ⟨N.init.rms_ok η _ _ h.ok.init, ⟨N.block0.conv.rms_ok η _ _ h.ok.block0.1, h.ok.block0.2⟩, h.ok.radius0,
    levels40Rms_all η (fun l => l.strided.conv.Ok ∧ l.strided.strided = true ∧ l.block.conv.Ok ∧
      l.block.strided = false ∧ 0 < l.poolRadius ∧ 0 < l.convRadius)
      (fun l A g h => ⟨l.strided.conv.rms_ok η _ _ h.1, h.2.1, l.block.conv.rms_ok η _ _ h.2.2.1, h.2.2.2⟩) _ _ _ h.ok.levels⟩
  init := N.init.rms_gpuOk η E _ _ h.init
  block0 := N.block0.conv.rms_gpuOk η E _ _ h.block0
  levels := levels40Rms_all η (fun l => l.strided.conv.GpuOk E ∧ l.block.conv.GpuOk E)
    (fun l A g h => ⟨l.strided.conv.rms_gpuOk η E _ _ h.1, l.block.conv.rms_gpuOk η E _ _ h.2⟩) _ _ _ h.levels
  fits := by
    obtain ⟨w1, w2, h1, h2, h3⟩ := h.fits
    exact ⟨w1, w2, N.init.rms_writes η _ _ _ h1, N.block0.rms_fits η _ _ _ _ h2, levels40Rms_fit η _ _ _ _ _ h3⟩

theorem NetConv.GpuOk.drops {E : NetEnv} {d1 d2 : ∀ n, (Fin n → ℕ → ℝ) → Fin n → ℕ → ℝ} {L : NetConv D} (h : L.GpuOk E) :
    L.GpuOk (E.withDrops d1 d2) := by
  cases L <;> exact h

end

/-! ### Steps with the same batch in another order -/

section
variable {k : ℕ} {σ : Equiv.Perm ℕ}

/-- Specification: the second step trains with the same shapes, shape `b` as shape `σ b` and moved by the vector `t b`, on
every level of the hierarchy, with its label and its dropout factors. -/
structure StepData.Reordered (σ : Equiv.Perm ℕ) (t : ℕ → Fin (k + 2) → ℝ) (S S' : StepData k) : Prop where
  env : S'.E = S.E.withDrops S'.E.drop1 S'.E.drop2
  perm : ∀ b, σ b < S.labels.length ↔ b < S.labels.length
  levels : SameLevels σ (S.clouds.map (·.moveEach t)) S'.clouds
  batch : ∀ p ∈ S.clouds, p.c.B = S.labels.length
  batch' : ∀ p ∈ S'.clouds, p.c.B = S.labels.length
  length : S'.labels.length = S.labels.length
  labels : ∀ b < S.labels.length, S'.labels[σ b]? = S.labels[b]?
  factors : ∀ b b' : Fin S.labels.length, b'.val = σ b → S'.m1 _ b' = S.m1 _ b ∧ S'.m2 _ b' = S.m2 _ b

theorem dropMoved_mask {B : ℕ} {m m' : Fin B → ℕ → ℝ} {d d' : ∀ n, (Fin n → ℕ → ℝ) → Fin n → ℕ → ℝ} (hd : d B = maskMul m)
    (hd' : d' B = maskMul m') (h : ∀ b b' : Fin B, b'.val = σ b → m' b' = m b) : DropMoved σ B d d' := by
  intro f f' hf b b' hb
  rw [hd, hd']
  funext ch
  simp only [maskMul, h b b' hb, hf b b' hb]

theorem dropLocal_mask {E : NetEnv} {m1 m2 : ∀ n, Fin n → ℕ → ℝ} (h : ∀ n, TrainEnvOk E (m1 n) (m2 n)) : DropLocal E := by
  intro _ n w f g hfg i ch hch
  rw [(h n).drop1]
  simp only [maskMul, hfg i ch hch]

/-- The loss of rows in other places with their labels. -/
theorem batchLoss_moved (C : ℕ) (e : ℝ) {B : ℕ} (hσ : ∀ b, σ b < B ↔ b < B) {rows rows' : List (ℕ → ℝ)} (hlen : rows.length = B)
    (h : RowsMoved σ rows rows') {labels labels' : List ℕ} (hl : labels.length = B) (hl' : labels'.length = B)
    (hll : ∀ b < B, labels'[σ b]? = labels[b]?) :
    batchLoss (sparseCE C e) labels' (rows'.map (softmaxRow C)) = batchLoss (sparseCE C e) labels (rows.map (softmaxRow C)) := by
  have key : ∀ (L : List ℕ) (R : List (ℕ → ℝ)), L.length = B → R.length = B →
      batchLoss (sparseCE C e) L (R.map (softmaxRow C)) = trainLoss C e (fun b : Fin B => L.getD b 0) (fun b : Fin B => R.getD b 0) := by
    intro L R h1 h2
    unfold trainLoss
    congr 1
    · apply List.ext_getElem (by rw [List.length_ofFn, h1])
      intro i g1 g2
      rw [List.getElem_ofFn, List.getD_eq_getElem?_getD, List.getElem?_eq_getElem g1]
      rfl
    · congr 1
      apply List.ext_getElem (by rw [List.length_ofFn, h2])
      intro i g1 g2
      rw [List.getElem_ofFn, List.getD_eq_getElem?_getD, List.getElem?_eq_getElem g1]
      rfl
  rw [key _ _ hl' (h.1.trans hlen), key _ _ hl hlen]
  refine (C165_loss C e hσ hlen h fun b b' hb => ?_).1
  rw [List.getD_eq_getElem?_getD, List.getD_eq_getElem?_getD, hb, hll b b.isLt]

/-- **C166, residual network**: two training steps with the same shapes in another order, moved independently, with the same
constant input features, labels and dropout factors, on hierarchies with the same points: the same loss and the same
gradient for every variable, whatever the schedules on the GPU. -/
theorem C166_net40_partial (hk : k ≤ 1) (a : NonLin) {Ws : ℕ} (hW : 0 < Ws) (N : Net40 (k + 2)) (ci c0 : ℕ)
    (b0 : ℕ × ℕ) (cs : List ((ℕ × ℕ) × (ℕ × ℕ))) (ce c1 C : ℕ) (hN : N.RmsFits ci N c0 b0 cs ce c1) (e : ℝ) (he : 0 < e) (he' : e < 1 / 2)
    (S S' : StepData k) (hdev : S.E.dev = .gpu) (heps : 0 < S.E.eps) (hok : N.GpuOk S.E) (hS : S.Ok a Ws C) (hS' : S'.Ok a Ws C)
    (t : ℕ → Fin (k + 2) → ℝ) (hR : S.Reordered σ t S') (v : ℕ → ℝ) (hc : ∀ row ∈ S.feats, ∀ x ∈ row, x = v)
    (hc' : ∀ row ∈ S'.feats, ∀ x ∈ row, x = v) (loss loss' : ℝ) (g g' : Grads40)
    (ht : N.GpuTrainStep S.E a Ws c0 b0 cs c1 C e S.m1 S.m2 S.clouds S.feats S.labels loss g)
    (ht' : N.GpuTrainStep S'.E a Ws c0 b0 cs c1 C e S'.m1 S'.m2 S'.clouds S'.feats S'.labels loss' g')
    (hs : N.Off S.E a Ws c0 b0 cs ce c1 C e S.m1 S.m2 S.clouds S.feats)
    (hs' : N.Off S'.E a Ws c0 b0 cs ce c1 C e S'.m1 S'.m2 S'.clouds S'.feats) :
    loss = loss' ∧ N.nums ci c0 b0 cs ce c1 C g = N.nums ci c0 b0 cs ce c1 C g' := by
  refine net40_grads_eq hk a hW N ci c0 b0 cs ce c1 C hN e he he' S S' hS hS' loss loss' g g' ht ht' hs hs' fun η d l l' h h' => ?_
  obtain ⟨rows, r1, r2, r3⟩ := h
  obtain ⟨rows', r1', r2', r3'⟩ := h'
  have ok := N.rms_gpuOk (ρ := 0) (ε := 1) η S.E N d hok
  have ok' : (N.rms 0 1 η N d).GpuOk S'.E := by
    rw [hR.env]
    exact ⟨ok.ok, ok.init.drops, ok.block0.drops, fun l hl => ⟨(ok.levels l hl).1.drops, (ok.levels l hl).2.drops⟩, ok.fits⟩
  have hdev' : S'.E.dev = .gpu := by rw [hR.env]; exact hdev
  have heps' : 0 < S'.E.eps := by rw [hR.env]; exact heps
  have q1 := C111_logits_partial hk S.E hdev heps (dropLocal_mask hS.train) hW _ ok ⟨S.clouds, [], [], none⟩ S.labels.length
    (fun p hp => ⟨hS.clouds p (List.mem_of_mem_tail hp), hR.batch p (List.mem_of_mem_tail hp)⟩) S.feats _ r1
  have q2 := C111_logits_partial hk S'.E hdev' heps' (dropLocal_mask hS'.train) hW _ ok' ⟨S'.clouds, [], [], none⟩ S.labels.length
    (fun p hp => ⟨hS'.clouds p (List.mem_of_mem_tail hp), hR.batch' p (List.mem_of_mem_tail hp)⟩) S'.feats _ r1'
  rw [← net40_logits_move S.E _ _ _ t] at q1
  rw [hR.env] at q2
  have key := C165_from_levels (B := S.labels.length) S.E heps _ ok.ok hR.perm
    (dropMoved_mask (hS.train _).drop1 (hS'.train _).drop1 fun b b' hb => (hR.factors b b' hb).1)
    (dropMoved_mask (hS.train _).drop2 (hS'.train _).drop2 fun b b' hb => (hR.factors b b' hb).2)
    (H := (⟨S.clouds, [], [], none⟩ : Hier k ℝ).moveEach t) (H' := ⟨S'.clouds, [], [], none⟩)
    (fun p hp => by
      obtain ⟨o, ho, rfl⟩ := List.mem_map.mp hp
      exact ⟨(hS.clouds o ho).valid, hR.batch o ho⟩)
    (fun p hp => ⟨(hS'.clouds p hp).valid, hR.batch' p hp⟩) hR.levels v hc hc' q1.symm q2.symm
  rw [r3, r3', batchLoss_moved C e hR.perm key.1 key.2 rfl hR.length hR.labels]

/-- **C166, small network**: the same for the network of modelnet40_small.py, with any input features, if every shape has one
point on the last level. -/
theorem C166_small_partial (hk : k ≤ 1) (a : NonLin) {Ws : ℕ} (hW : 0 < Ws) (N : NetSmall (k + 2)) (ci : ℕ)
    (cs : List (ℕ × ℕ)) (cl c1 C : ℕ) (hN : N.RmsFits ci N cs cl c1) (e : ℝ) (he : 0 < e) (he' : e < 1 / 2)
    (S S' : StepData k) (hdev : S.E.dev = .gpu) (heps : 0 < S.E.eps) (hok : N.GpuOk S.E) (hS : S.Ok a Ws C) (hS' : S'.Ok a Ws C)
    (t : ℕ → Fin (k + 2) → ℝ) (hR : S.Reordered σ t S') {p p' : CloudObj (Fin (k + 2) → ℝ)} (hp : S.clouds.getLast? = some p)
    (hp' : S'.clouds.getLast? = some p') (ho1 : OnePerElement p.c) (ho1' : OnePerElement p'.c) {o o' : CloudObj (Fin (k + 2) → ℝ)}
    (ho : S.clouds.head? = some o) (ho' : S'.clouds.head? = some o') {f : Fin o.c.n → ℕ → ℝ} {f' : Fin o'.c.n → ℕ → ℝ}
    (hf : (o.flattenFeatures S.feats).1 = .ok f) (hf' : (o'.flattenFeatures S'.feats).1 = .ok f')
    (s : SameBatch (o.c.moveEach t) o'.c σ) (hsf : ∀ q, f' (s.e q) = f q) (loss loss' : ℝ) (g g' : SmallGrads)
    (ht : N.GpuTrainStep S.E a Ws cs cl c1 C e S.m1 S.m2 S.clouds S.feats S.labels loss g)
    (ht' : N.GpuTrainStep S'.E a Ws cs cl c1 C e S'.m1 S'.m2 S'.clouds S'.feats S'.labels loss' g')
    (hs : N.Off S.E a Ws cs cl c1 C e S.m1 S.m2 S.clouds S.feats)
    (hs' : N.Off S'.E a Ws cs cl c1 C e S'.m1 S'.m2 S'.clouds S'.feats) :
    loss = loss' ∧ N.nums ci cs cl c1 C g = N.nums ci cs cl c1 C g' := by
  refine small_grads_eq hk a hW N ci cs cl c1 C hN e he he' S S' hS hS' loss loss' g g' ht ht' hs hs' fun η d l l' h h' => ?_
  obtain ⟨rows, r1, r2, r3⟩ := h
  obtain ⟨rows', r1', r2', r3'⟩ := h'
  have ok := N.rms_gpuOk (ρ := 0) (ε := 1) η S.E N d hok
  have ok' : (N.rms 0 1 η N d).GpuOk S'.E := by
    rw [hR.env]
    exact ⟨ok.ok, ok.last.drops, fun l hl => (ok.levels l hl).drops, ok.fits⟩
  have hdev' : S'.E.dev = .gpu := by rw [hR.env]; exact hdev
  have heps' : 0 < S'.E.eps := by rw [hR.env]; exact heps
  have q1 := C111_small_logits_partial hk S.E hdev heps (dropLocal_mask hS.train) hW _ ok ⟨S.clouds, [], [], none⟩ S.labels.length
    (fun p hp => ⟨hS.clouds p hp, hR.batch p hp⟩) S.feats _ r1
  have q2 := C111_small_logits_partial hk S'.E hdev' heps' (dropLocal_mask hS'.train) hW _ ok' ⟨S'.clouds, [], [], none⟩ S.labels.length
    (fun p hp => ⟨hS'.clouds p hp, hR.batch' p hp⟩) S'.feats _ r1'
  rw [← netSmall_logits_move S.E _ _ _ t] at q1
  rw [hR.env] at q2
  have e1 : ((⟨S.clouds, [], [], none⟩ : Hier k ℝ).moveEach t).clouds = S.clouds.map (·.moveEach t) := rfl
  have key := C165_small_from_levels (B := S.labels.length) S.E heps _ ok.ok hR.perm
    (dropMoved_mask (hS.train _).drop1 (hS'.train _).drop1 fun b b' hb => (hR.factors b b' hb).1)
    (dropMoved_mask (hS.train _).drop2 (hS'.train _).drop2 fun b b' hb => (hR.factors b b' hb).2)
    (H := (⟨S.clouds, [], [], none⟩ : Hier k ℝ).moveEach t) (H' := ⟨S'.clouds, [], [], none⟩)
    (fun p hp => by
      obtain ⟨o, ho, rfl⟩ := List.mem_map.mp hp
      exact ⟨(hS.clouds o ho).valid, hR.batch o ho⟩)
    (fun p hp => ⟨(hS'.clouds p hp).valid, hR.batch' p hp⟩) (p := p.moveEach t) (p' := p')
    (by rw [e1, List.getLast?_map, hp]; rfl) hp' ho1 ho1' (o := o.moveEach t) (o' := o')
    (by rw [e1, List.head?_map, ho]; rfl) ho'
    (f := f) (f' := f') (by rw [flattenFeatures_move]; exact hf) hf' s hsf hR.levels q1.symm q2.symm
  rw [r3, r3', batchLoss_moved C e hR.perm key.1 key.2 rfl hR.length hR.labels]

end

/-! ### The hypotheses can be met -/

theorem exSmall_off_of (o3 o2 : CloudObj (Fin 2 → ℝ)) (hn : o2.c.n ≤ 99) (feats : List (List (ℕ → ℝ))) :
    (exSmallCurve.at 0).Off (k := 0) exTrainEnv .elu 1 [(1, 1)] 1 1 2 (1 / 10 ^ 7) (fun _ _ _ => 2) (fun _ _ _ => 2) [o3, o2, o2] feats := by
  intro o os e f0 hf
  obtain ⟨rfl, rfl⟩ := List.cons.inj e
  refine ⟨⟨exConvCurve_smooth _ _, fun r hr => ⟨fun i ch _ => ?_, fun i ch _ => ?_, exConvCurve_smooth _ _⟩⟩, fun n out h => ?_⟩
  · exact bn_large_ne (exBn 0) hn r ch rfl rfl one_pos i
  · exact bn_large_ne (exBn 0) hn _ ch rfl rfl one_pos i
  · obtain ⟨r, h1, h⟩ := h
    match r, h1, h with
    | .ok r, h1, h =>
      obtain ⟨r', h2, h⟩ := h
      match r', h2, h with
      | .ok r', h2, h =>
        cases h
        refine ⟨fun i ch _ => Or.inr ?_, fun i ch _ => Or.inr ?_, fun b j hj => ?_⟩
        · exact bn_large_ne (exBn 0) hn _ ch rfl rfl one_pos i
        · exact bn_large_ne (exBn 0) hn _ ch rfl rfl one_pos i
        · have hsm : ∀ x : ℕ → ℝ, (∀ j < 2, x j = 0) → softmaxRow 2 x j = 1 / 2 := fun x hx =>
            softmaxRow_half x (fun i hi => by rw [hx i hi, hx 0 (by omega)]) hj
          change softmaxRow 2 _ j ≠ _ ∧ softmaxRow 2 _ j ≠ _
          rw [hsm]
          · constructor <;> norm_num
          · intro j hj
            simp only [NetHead.runSmall, Lin.apply, conv1x1, exSmallCurve, SmallCurve.at, Finset.sum_range_one]
            split <;> simp

theorem exSmall_step {o3 o2 : CloudObj (Fin 2 → ℝ)} (h3 : GpuCloud 1 o3.c) (h2 : GpuCloud 1 o2.c) {feats : List (List (ℕ → ℝ))}
    {f0 : Fin o3.c.n → ℕ → ℝ} (e0 : (o3.flattenFeatures feats).1 = .ok f0) {labels : List ℕ} (hl : labels.length = o2.c.n) :
    ∃ loss g, (exSmallCurve.at 0).GpuTrainStep (k := 0) exTrainEnv .elu 1 [(1, 1)] 1 1 2 (1 / 10 ^ 7) (fun _ _ _ => 2) (fun _ _ _ => 2)
      [o3, o2, o2] feats labels loss g := by
  have hc : ∀ p ∈ [o3, o2, o2], GpuCloud 1 p.c := by
    intro p hp
    simp only [List.mem_cons, List.not_mem_nil, or_false] at hp
    rcases hp with rfl | rfl | rfl
    exacts [h3, h2, h2]
  obtain ⟨loss, hloss⟩ : ∃ loss, (exSmallCurve.at 0).GpuLoss (k := 0) exTrainEnv 1 2 (1 / 10 ^ 7) [o3, o2, o2] feats labels loss := by
    obtain ⟨r, hr⟩ := exMc_runs 0 h3 h2 f0
    obtain ⟨r', hr'⟩ := exMc_runs 0 h2 h2 (exTrainEnv.bnAct (exBn 0) ((⟨1, fun _ _ => 1 + 0, fun _ => 0⟩ : Lin).apply
      (exTrainEnv.bnAct (exBn 0) r)))
    refine ⟨_, List.ofFn ((exSmallCurve.at 0).head.runSmall exTrainEnv (r' ∘ o2.c.sortedIndicesBatch)), ?_, ?_, rfl⟩
    · unfold NetSmall.GpuLogits
      dsimp only
      rw [e0]
      exact ⟨.ok ⟨_, r' ∘ o2.c.sortedIndicesBatch⟩, ⟨.ok r, hr, .ok r', hr', rfl⟩, rfl⟩
    · rw [List.length_ofFn, hl]
  obtain ⟨g, hg⟩ := C160_runs (k := 0) exTrainEnv .elu (fun _ _ _ => 2) (fun _ _ _ => 2) one_pos (exSmallCurve.at 0) one_pos
    (by simp [exSmallCurve, SmallCurve.at, LevelCurve.at]) [(1, 1)] rfl 1 1 2 _ _ hc _ _ _ hloss
  exact ⟨loss, g, hg⟩

theorem exSmallAt_gpuOk : (exSmallCurve.at 0).GpuOk (k := 0) exTrainEnv := by
  have hc : (exConvCurve.at 0).GpuOk exTrainEnv := ⟨one_ne_zero, one_dvd _, by decide, by decide, rfl⟩
  refine ⟨⟨⟨trivial, one_pos, one_pos⟩, ?_⟩, hc, ?_, ?_, le_rfl⟩ <;>
    simp only [SmallCurve.at, exSmallCurve, List.map_cons, List.map_nil, List.mem_singleton, forall_eq]
  · exact ⟨trivial, one_pos, one_pos⟩
  · exact hc
  · exact le_rfl

/-- The shapes of `exO3` exchanged, the second one moved by `(3, 1)`. -/
noncomputable def exP3 : CloudObj (Fin 2 → ℝ) := ⟨⟨3, ![![5, 1], ![1 / 4, 0], ![0, 0]], ![0, 1, 1], 2⟩, some ([2], [1, 2]), some [2], none, none⟩
/-- Those of `exO2`. -/
noncomputable def exP2 : CloudObj (Fin 2 → ℝ) := ⟨⟨2, ![![5, 1], ![0, 0]], ![0, 1], 2⟩, some ([2], [1, 1]), some [2], none, none⟩
/-- The vectors by which the shapes are moved. -/
def exShift : ℕ → Fin 2 → ℝ := fun b => if b = 1 then ![3, 1] else 0

/-- The same points of `exO3` and `exP3`. -/
noncomputable def exSame3 : SameBatch (exO3.c.moveEach exShift) exP3.c (Equiv.swap 0 1) where
  e := (Equiv.swap 0 2 : Fin 3 ≃ Fin 3)
  pts := by
    have : ∀ (p : Fin 3) (d : Fin 2), (![![5, 1], ![1 / 4, 0], ![0, 0]] : Fin 3 → Fin 2 → ℝ) (Equiv.swap 0 2 p) d =
        (![![0, 0], ![1 / 4, 0], ![2, 0]] : Fin 3 → Fin 2 → ℝ) p d + exShift (((![0, 0, 1] : Fin 3 → ℕ)) p) d := by
      have e0 : Equiv.swap (0 : Fin 3) 2 0 = 2 := by decide
      have e1 : Equiv.swap (0 : Fin 3) 2 1 = 1 := by decide
      have e2 : Equiv.swap (0 : Fin 3) 2 2 = 0 := by decide
      intro p d
      match p, d with
      | 0, 0 => rw [e0]; change (0 : ℝ) = 0 + exShift 0 0; norm_num [exShift]
      | 0, 1 => rw [e0]; change (0 : ℝ) = 0 + exShift 0 1; norm_num [exShift]
      | 1, 0 => rw [e1]; change (1 / 4 : ℝ) = 1 / 4 + exShift 0 0; norm_num [exShift]
      | 1, 1 => rw [e1]; change (0 : ℝ) = 0 + exShift 0 1; norm_num [exShift]
      | 2, 0 => rw [e2]; change (5 : ℝ) = 2 + exShift 1 0; norm_num [exShift]
      | 2, 1 => rw [e2]; change (1 : ℝ) = 0 + exShift 1 1; norm_num [exShift]
    exact fun p => funext (this p)
  batch := by
    have : ∀ p : Fin 3, (![0, 1, 1] : Fin 3 → ℕ) (Equiv.swap 0 2 p) = Equiv.swap 0 1 ((![0, 0, 1] : Fin 3 → ℕ) p) := by
      decide
    exact this

/-- The same points of `exO2` and `exP2`. -/
noncomputable def exSame2 : SameBatch (exO2.c.moveEach exShift) exP2.c (Equiv.swap 0 1) where
  e := (Equiv.swap 0 1 : Fin 2 ≃ Fin 2)
  pts := by
    have : ∀ (p : Fin 2) (d : Fin 2), (![![5, 1], ![0, 0]] : Fin 2 → Fin 2 → ℝ) (Equiv.swap 0 1 p) d =
        (![![0, 0], ![2, 0]] : Fin 2 → Fin 2 → ℝ) p d + exShift (((![0, 1] : Fin 2 → ℕ)) p) d := by
      have e0 : Equiv.swap (0 : Fin 2) 1 0 = 1 := by decide
      have e1 : Equiv.swap (0 : Fin 2) 1 1 = 0 := by decide
      intro p d
      match p, d with
      | 0, 0 => rw [e0]; change (0 : ℝ) = 0 + exShift 0 0; norm_num [exShift]
      | 0, 1 => rw [e0]; change (0 : ℝ) = 0 + exShift 0 1; norm_num [exShift]
      | 1, 0 => rw [e1]; change (5 : ℝ) = 2 + exShift 1 0; norm_num [exShift]
      | 1, 1 => rw [e1]; change (1 : ℝ) = 0 + exShift 1 1; norm_num [exShift]
    exact fun p => funext (this p)
  batch := by
    have : ∀ p : Fin 2, (![0, 1] : Fin 2 → ℕ) (Equiv.swap 0 1 p) = Equiv.swap 0 1 ((![0, 1] : Fin 2 → ℕ) p) := by
      decide
    exact this

/-- Features in the order of the shapes. -/
def exFeats : List (List (ℕ → ℝ)) := [[fun _ => 1, fun _ => 2], [fun _ => 3, fun _ => 0]]
/-- Features in the other order. -/
def exFeats' : List (List (ℕ → ℝ)) := [[fun _ => 3, fun _ => 0], [fun _ => 2, fun _ => 1]]

theorem exFlat : (exO3.flattenFeatures exFeats).1 = .ok ![fun _ => 1, fun _ => 2, fun _ => 3] := by
  have e : exO3.c.sortedIndicesBatch = Equiv.refl _ := argsortAsc_eq_refl (n := 3) (![0, 0, 1] : Fin 3 → ℕ) (by decide)
  simp only [CloudObj.flattenFeatures, CloudObj.getSizes, flattenRows, e]
  simp [exO3, exFeats]
  funext i
  change Fin 3 at i
  match i with
  | 0 => rfl
  | 1 => rfl
  | 2 => rfl

theorem exFlat' : (exP3.flattenFeatures exFeats').1 = .ok ![fun _ => 3, fun _ => 2, fun _ => 1] := by
  have e : exP3.c.sortedIndicesBatch = Equiv.refl _ := argsortAsc_eq_refl (n := 3) (![0, 1, 1] : Fin 3 → ℕ) (by decide)
  simp only [CloudObj.flattenFeatures, CloudObj.getSizes, flattenRows, e]
  simp [exP3, exFeats']
  funext i
  change Fin 3 at i
  match i with
  | 0 => rfl
  | 1 => rfl
  | 2 => rfl

theorem exP_clouds : GpuCloud 1 exP3.c ∧ GpuCloud 1 exP2.c :=
  ⟨⟨by decide, by simp [exP3], by simp [exP3]⟩, ⟨by decide, by simp [exP2], by simp [exP2]⟩⟩

theorem exRows : ∀ q, (![fun _ => 3, fun _ => 2, fun _ => 1] : Fin 3 → ℕ → ℝ) (exSame3.e q) =
    (![fun _ => 1, fun _ => 2, fun _ => 3] : Fin 3 → ℕ → ℝ) q := by
  have : ∀ q : Fin 3, (![fun _ => 3, fun _ => 2, fun _ => 1] : Fin 3 → ℕ → ℝ) (Equiv.swap (0 : Fin 3) 2 q) =
      (![fun _ => 1, fun _ => 2, fun _ => 3] : Fin 3 → ℕ → ℝ) q := by
    intro q
    match q with
    | 0 => rfl
    | 1 => rfl
    | 2 => rfl
  exact this

theorem exOne : OnePerElement exO2.c ∧ OnePerElement exP2.c := by
  constructor <;> intro b hb <;> change b < 2 at hb <;>
    (obtain rfl | rfl : b = 0 ∨ b = 1 := by omega) <;> rfl

/-- One step with two shapes and one with the shapes exchanged and one of them moved. -/
noncomputable def exStep : StepData 0 := ⟨exTrainEnv, fun _ _ _ => 2, fun _ _ _ => 2, [exO3, exO2, exO2], exFeats, [0, 1]⟩
/-- The other step. -/
noncomputable def exStep' : StepData 0 := ⟨exTrainEnv, fun _ _ _ => 2, fun _ _ _ => 2, [exP3, exP2, exP2], exFeats', [1, 0]⟩

theorem exReordered : exStep.Reordered (Equiv.swap 0 1) exShift exStep' where
  env := rfl
  perm := by
    intro b
    rcases b with _ | _ | b
    · simp [exStep]
    · simp [exStep]
    · rw [Equiv.swap_apply_of_ne_of_ne (by omega) (by omega)]
  levels := .cons ⟨exSame3⟩ (.cons ⟨exSame2⟩ (.cons ⟨exSame2⟩ .nil))
  batch := by simp [exStep, exO3, exO2]
  batch' := by simp [exStep, exStep', exP3, exP2]
  length := rfl
  labels := by
    intro b hb
    rcases b with _ | _ | b
    · simp [exStep, exStep']
    · simp [exStep, exStep']
    · simp only [exStep, List.length_cons, List.length_nil] at hb
      omega
  factors := fun _ _ _ => ⟨rfl, rfl⟩

example : ∃ loss g g', (exSmallCurve.at 0).GpuTrainStep (k := 0) exTrainEnv .elu 1 [(1, 1)] 1 1 2 (1 / 10 ^ 7) (fun _ _ _ => 2)
      (fun _ _ _ => 2) [exO3, exO2, exO2] exFeats [0, 1] loss g ∧
    (exSmallCurve.at 0).GpuTrainStep (k := 0) exTrainEnv .elu 1 [(1, 1)] 1 1 2 (1 / 10 ^ 7) (fun _ _ _ => 2) (fun _ _ _ => 2)
      [exP3, exP2, exP2] exFeats' [1, 0] loss g' ∧
    (exSmallCurve.at 0).nums 1 [(1, 1)] 1 1 2 g = (exSmallCurve.at 0).nums 1 [(1, 1)] 1 1 2 g' := by
  have h3 := exClouds exO3 (by simp)
  have h2 := exClouds exO2 (by simp)
  obtain ⟨h3', h2'⟩ := exP_clouds
  obtain ⟨loss, g, ht⟩ := exSmall_step h3 h2 exFlat (labels := [0, 1]) rfl
  obtain ⟨loss', g', ht'⟩ := exSmall_step h3' h2' exFlat' (labels := [1, 0]) rfl
  obtain ⟨rfl, q⟩ := C166_small_partial (k := 0) (by omega) .elu one_pos (exSmallCurve.at 0) 1 [(1, 1)] 1 1 2 exSmall_fits (1 / 10 ^ 7)
    (by norm_num) (by norm_num) exStep exStep' rfl (by norm_num [exStep, exTrainEnv]) exSmallAt_gpuOk
    ⟨rfl, fun n => ⟨rfl, rfl, rfl, rfl⟩, exClouds, by simp [exStep]⟩
    ⟨rfl, fun n => ⟨rfl, rfl, rfl, rfl⟩, by simp [exStep', h3', h2'], by simp [exStep']⟩ exShift exReordered (p := exO2) (p' := exP2) rfl rfl
    exOne.1 exOne.2 (o := exO3) (o' := exP3) rfl rfl exFlat exFlat' exSame3 exRows loss loss' g g' ht ht'
    (exSmall_off_of _ _ (by norm_num [exO2]) _) (exSmall_off_of _ _ (by norm_num [exP2]) _)
  exact ⟨loss, g, g', ht, ht', q⟩

end PC
