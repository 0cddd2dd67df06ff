import Verif.NetParams
import Verif.Props.Params
import Mathlib.Data.List.Forall2

/-!
# C163: layers used by the small network, and the network restored from a checkpoint
-/

set_option linter.unusedVariables false

namespace PC

/-! ### Features beyond the number of input features are not used -/

theorem basisProj_feats {K κ : Type*} [Field K] {n m nf : ℕ} (pairs : List (Fin n × Fin m)) (basis : Fin pairs.length → κ → K)
    (f g : Fin nf → ℕ → K) (c : Fin m) {ch : ℕ} (h : ∀ i, f i ch = g i ch) (b : κ) :
    basisProj pairs basis f c ch b = basisProj pairs basis g c ch b := by
  unfold basisProj segSum
  refine Finset.sum_congr rfl fun j _ => ?_
  dsimp only
  have : gatherD f (pairs.get j).1.val ch = gatherD g (pairs.get j).1.val ch := by
    unfold gatherD
    split
    · exact h _
    · rfl
  rw [this]

/-- Specification: two matrices of features agree in the first `c` columns. -/
def FeatEq (c : ℕ) {n : ℕ} (f g : Fin n → ℕ → ℝ) : Prop := ∀ i, ∀ ch < c, f i ch = g i ch

theorem div_lt_cin {x cin hid : ℕ} (hx : x < cin * hid) : x / hid < cin :=
  Nat.div_lt_of_lt_mul (by rw [Nat.mul_comm]; exact hx)

theorem mc_feats (act : ℝ → ℝ) (D : ℕ) (L : MCLayer ℝ) {n m nf : ℕ} (pairs : List (Fin n × Fin m))
    (input : Fin pairs.length → ℕ → ℝ) (pdf : Fin pairs.length → ℝ) {f g : Fin nf → ℕ → ℝ} (h : FeatEq L.cin f g) (c : Fin m)
    (o : ℕ) : L.conv act D pairs input pdf f c o = L.conv act D pairs input pdf g c o := by
  unfold MCLayer.conv
  refine Finset.sum_congr rfl fun x hx => ?_
  dsimp only
  rw [basisProj_feats pairs _ f g c (fun i => h i _ (div_lt_cin (Finset.mem_range.mp hx)))]

theorem pc_feats (act : ℝ → ℝ) (D : ℕ) (L : PCLayer ℝ) {n m nf : ℕ} (pairs : List (Fin n × Fin m))
    (input : Fin pairs.length → ℕ → ℝ) (pdf : Fin pairs.length → ℝ) {f g : Fin nf → ℕ → ℝ} (h : FeatEq L.cin f g) (c : Fin m)
    (o : ℕ) : L.conv act D pairs input pdf f c o = L.conv act D pairs input pdf g c o := by
  unfold PCLayer.conv
  refine Finset.sum_congr rfl fun x hx => ?_
  rw [basisProj_feats pairs _ f g c (fun i => h i _ (div_lt_cin (Finset.mem_range.mp hx)))]

theorem kpProject_feats {n m nf : ℕ} (cin nk nkp : ℕ) (pairs : List (Fin n × Fin m)) (w : Fin pairs.length → ℕ → ℝ)
    {f g : Fin nf → ℕ → ℝ} (h : FeatEq cin f g) : kpProject cin nk nkp pairs w f = kpProject cin nk nkp pairs w g := by
  unfold kpProject
  dsimp only
  by_cases hc : cin * nk = 0 ∨ (m * (cin * min nk (nkp + padCols nk))) % (cin * nk) ≠ 0
  · rw [if_pos hc, if_pos hc]
  · rw [if_neg hc, if_neg hc]
    have h0 : 0 < cin := Nat.pos_of_ne_zero fun e => hc (Or.inl (by rw [e, Nat.zero_mul]))
    congr 2
    funext r x
    split
    · exact basisProj_feats pairs _ f g _ (fun i => h i _ (Nat.mod_lt _ h0)) _
    · rfl

theorem kp_feats {D : ℕ} (L : KPLayer D) (sigma : ℝ) {n m nf : ℕ} (pairs : List (Fin n × Fin m))
    (input : Fin pairs.length → Fin D → ℝ) {f g : Fin nf → ℕ → ℝ} (h : FeatEq L.cin f g) :
    L.conv sigma pairs input f = L.conv sigma pairs input g := by
  have ho : L.offsets sigma pairs input f = L.offsets sigma pairs input g := by
    unfold KPLayer.offsets
    rw [kpProject_feats L.cin L.nk L.nkp pairs _ h]
  unfold KPLayer.conv
  rw [ho]
  cases L.offsets sigma pairs input g with
  | error e => rfl
  | ok off =>
    dsimp only
    rw [kpProject_feats L.cin L.nk L.nkp pairs _ h]

/-- Number of input features of a convolution. -/
def NetConv.inputs {D : ℕ} : NetConv D → ℕ
  | .mc L => L.cin
  | .pc L => L.cin
  | .kp L => L.cin

theorem conv_feats {k : ℕ} (E : NetEnv) (L : NetConv (k + 2)) (cin cout : Cloud (Fin (k + 2) → ℝ)) (radius : ℝ)
    {f g : Fin cin.n → ℕ → ℝ} (h : FeatEq L.inputs f g) : L.call E cin cout radius f = L.call E cin cout radius g := by
  cases L with
  | mc L =>
    unfold NetConv.call MCLayer.call
    dsimp only
    cases layerNbh E.dev E.eps cin cout radius with
    | error e => rfl
    | ok nb =>
      dsimp only
      cases (nb.runGet E.ker E.dev none ⟨fun _ => 1 / 5, .constant, false⟩).1 with
      | error e => rfl
      | ok pdf =>
        dsimp only
        congr 1
        funext c o
        split
        · exact mc_feats _ _ L _ _ _ h _ _
        · rfl
  | pc L =>
    unfold NetConv.call PCLayer.call
    dsimp only
    cases layerNbh E.dev E.eps cin cout radius with
    | error e => rfl
    | ok nb =>
      dsimp only
      cases (nb.runGet E.ker E.dev none ⟨fun _ => 1 / 5, .constant, false⟩).1 with
      | error e => rfl
      | ok pdf =>
        dsimp only
        congr 1
        funext c o
        split
        · exact pc_feats _ _ L _ _ _ h _ _
        · rfl
  | kp L =>
    unfold NetConv.call KPLayer.call
    dsimp only
    cases layerNbh E.dev E.eps cin cout radius with
    | error e => rfl
    | ok nb =>
      dsimp only
      rw [kp_feats L _ _ _ h]

/-! ### Layers that agree -/

/-- Specification: two convolutions give the same `c` features, from features that agree in the inputs of the first. -/
def ConvEq (c : ℕ) (L L' : NetConv 3) : Prop :=
  ∀ (E : NetEnv) (cin cout : Cloud (Fin 3 → ℝ)) (radius : ℝ) (f g : Fin cin.n → ℕ → ℝ), FeatEq L.inputs f g →
    SameOut c (L'.call E cin cout radius g) (L.call E cin cout radius f)

/-- Specification: the numbers of two linear layers with `c` outputs agree. -/
def LinEq (c : ℕ) (l l' : Lin) : Prop :=
  l'.cin = l.cin ∧ (∀ a < l.cin, ∀ o < c, l'.w a o = l.w a o) ∧ ∀ o < c, l'.b o = l.b o

/-- Specification: the numbers of two batch normalisations of `c` features agree. -/
def BnEq (c : ℕ) (b b' : BNorm) : Prop :=
  b'.eps = b.eps ∧ ∀ ch < c, b'.gamma ch = b.gamma ch ∧ b'.beta ch = b.beta ch ∧ b'.mean ch = b.mean ch ∧ b'.var ch = b.var ch

theorem LinEq.apply {c : ℕ} {l l' : Lin} (h : LinEq c l l') {n : ℕ} {f g : Fin n → ℕ → ℝ} (hf : FeatEq l.cin f g) :
    FeatEq c (l.apply f) (l'.apply g) := by
  intro i o ho
  unfold Lin.apply conv1x1
  rw [h.1, h.2.2 o ho]
  congr 1
  refine Finset.sum_congr rfl fun x hx => ?_
  rw [hf i x (Finset.mem_range.mp hx), h.2.1 x (Finset.mem_range.mp hx) o ho]

theorem BnEq.apply {c : ℕ} {b b' : BNorm} (h : BnEq c b b') (t : Bool) {n : ℕ} {f g : Fin n → ℕ → ℝ} (hf : FeatEq c f g) :
    FeatEq c (b.apply t f) (b'.apply t g) := by
  intro i ch hc
  obtain ⟨h1, h2, h3, h4⟩ := h.2 ch hc
  unfold BNorm.apply
  have e : (fun j => f j ch) = fun j => g j ch := funext fun j => hf j ch hc
  have e1 : ∀ j, f j ch = g j ch := fun j => hf j ch hc
  simp only [h1, h2, h3, h4, h.1, e1]

theorem BnEq.act {c : ℕ} {b b' : BNorm} (h : BnEq c b b') (E : NetEnv) {n : ℕ} {f g : Fin n → ℕ → ℝ} (hf : FeatEq c f g) :
    FeatEq c (E.bnAct b f) (E.bnAct b' g) := fun i ch hc => by
  unfold NetEnv.bnAct
  rw [h.apply E.training hf i ch hc]

/-- Specification: a dropout layer computes each column from the same column, as the product with a mask does. -/
def DropCols (drop : ∀ n, (Fin n → ℕ → ℝ) → Fin n → ℕ → ℝ) : Prop :=
  ∀ (n c : ℕ) (f g : Fin n → ℕ → ℝ), FeatEq c f g → FeatEq c (drop n f) (drop n g)

/-- Specification: levels that agree; `a` and `c` are the numbers of input and output features. -/
structure LevelEq (a c : ℕ) (l l' : LevelSmall 3) : Prop where
  inputs : l.conv.inputs = a
  conv : ConvEq c l.conv l'.conv
  bn1 : BnEq c l.bn1 l'.bn1
  linIn : l.lin.cin = c
  lin : LinEq c l.lin l'.lin
  bn2 : BnEq c l.bn2 l'.bn2
  sample : l'.sampleRadius = l.sampleRadius
  radius : l'.convRadius = l.convRadius

/-- Specification: lists of levels that agree, with numbers of features that fit. -/
inductive LevelsEq : ℕ → ℕ → List (LevelSmall 3) → List (LevelSmall 3) → Prop
  | nil (a : ℕ) : LevelsEq a a [] []
  | cons {a c e : ℕ} {l l' : LevelSmall 3} {ls ls' : List (LevelSmall 3)} (h : LevelEq a c l l') (hs : LevelsEq c e ls ls') :
      LevelsEq a e (l :: ls) (l' :: ls')

/-- Specification: networks that agree, from `a` input features to `o` logits. -/
structure NetEq (a o : ℕ) (N N' : NetSmall 3) : Prop where
  widths : ∃ c e h, LevelsEq a c N.levels N'.levels ∧ N.last.inputs = c ∧ ConvEq e N.last N'.last ∧ BnEq e N.head.bn1 N'.head.bn1 ∧
    N.head.dense1.cin = e ∧ LinEq h N.head.dense1 N'.head.dense1 ∧ BnEq h N.head.bn2 N'.head.bn2 ∧ N.head.dense2.cin = h ∧
    LinEq o N.head.dense2 N'.head.dense2
  sample : N'.lastSampleRadius = N.lastSampleRadius
  radius : N'.lastConvRadius = N.lastConvRadius

/-- Specification: the same table of logits with `o` columns, or the same exception. -/
def SameTable (o : ℕ) : Except Err (List (ℕ → ℝ)) → Except Err (List (ℕ → ℝ)) → Prop
  | .ok a, .ok b => List.Forall₂ (fun x y => ∀ ch < o, x ch = y ch) a b
  | .error e, .error e' => e = e'
  | _, _ => False

theorem head_eq {e h o : ℕ} {H H' : NetHead} (E : NetEnv) (hd : E.training = true → DropCols E.drop1 ∧ DropCols E.drop2)
    (h1 : BnEq e H.bn1 H'.bn1) (h2 : H.dense1.cin = e) (h3 : LinEq h H.dense1 H'.dense1) (h4 : BnEq h H.bn2 H'.bn2)
    (h5 : H.dense2.cin = h) (h6 : LinEq o H.dense2 H'.dense2) {n : ℕ} {f g : Fin n → ℕ → ℝ} (hf : FeatEq e f g) :
    FeatEq o (H.runSmall E f) (H'.runSmall E g) := by
  unfold NetHead.runSmall
  refine h6.apply ?_
  rw [h5]
  have d1 : ∀ {c : ℕ} {f g : Fin n → ℕ → ℝ}, FeatEq c f g → FeatEq c (E.dropout1 f) (E.dropout1 g) := by
    intro c f g hfg
    unfold NetEnv.dropout1
    cases ht : E.training with
    | false => simpa using hfg
    | true => simpa using (hd ht).1 n c f g hfg
  have d2 : ∀ {c : ℕ} {f g : Fin n → ℕ → ℝ}, FeatEq c f g → FeatEq c (E.dropout2 f) (E.dropout2 g) := by
    intro c f g hfg
    unfold NetEnv.dropout2
    cases ht : E.training with
    | false => simpa using hfg
    | true => simpa using (hd ht).2 n c f g hfg
  refine d2 (h4.act E (h3.apply ?_))
  rw [h2]
  exact d1 (h1.act E hf)

/-- Specification: what the loop over the layers returns agrees. -/
def LoopEq (c : ℕ) : Except Err ((n : ℕ) × (Fin n → ℕ → ℝ)) → Except Err ((n : ℕ) × (Fin n → ℕ → ℝ)) → Prop
  | .ok a, .ok b => ∃ (n : ℕ) (f g : Fin n → ℕ → ℝ), a = ⟨n, f⟩ ∧ b = ⟨n, g⟩ ∧ FeatEq c f g
  | .error e, .error e' => e = e'
  | _, _ => False

theorem loop_eq {a c e : ℕ} {N N' : NetSmall 3} (E : NetEnv) (hr : N'.lastConvRadius = N.lastConvRadius)
    (hc : N.last.inputs = c) (hl : ConvEq e N.last N'.last) {ls ls' : List (LevelSmall 3)} (h : LevelsEq a c ls ls') :
    ∀ (o : CloudObj (Fin 3 → ℝ)) (f g : Fin o.c.n → ℕ → ℝ) (os : List (CloudObj (Fin 3 → ℝ))), FeatEq a f g →
      LoopEq e (netSmallLoop (k := 1) E N o f os ls) (netSmallLoop (k := 1) E N' o g os ls') := by
  induction h with
  | nil a =>
    intro o f g os hf
    match os with
    | [] => rw [netSmallLoop, netSmallLoop] <;> simp [LoopEq]
    | [o'] =>
      rw [netSmallLoop, netSmallLoop, hr]
      have := hl E o.c o'.c N.lastConvRadius f g (by rw [hc]; exact hf)
      revert this
      cases N'.last.call E o.c o'.c N.lastConvRadius g <;> cases N.last.call E o.c o'.c N.lastConvRadius f <;> intro this
      · exact Eq.symm this
      · exact this.elim
      · exact this.elim
      · exact ⟨_, _, _, rfl, rfl, fun i ch hlt => (this _ ch hlt).symm⟩
    | o' :: o'' :: os => rw [netSmallLoop, netSmallLoop] <;> simp [LoopEq]
  | @cons a c' e' l l' ls ls' h1 hs ih =>
    intro o f g os hf
    match os with
    | [] => rw [netSmallLoop, netSmallLoop] <;> simp [LoopEq]
    | o' :: os =>
      rw [netSmallLoop, netSmallLoop, h1.radius]
      have := h1.conv E o.c o'.c l.convRadius f g (by rw [h1.inputs]; exact hf)
      revert this
      cases l'.conv.call E o.c o'.c l.convRadius g <;> cases l.conv.call E o.c o'.c l.convRadius f <;> intro this
      · exact Eq.symm this
      · exact this.elim
      · exact this.elim
      · dsimp only
        refine ih hc _ _ _ _ (h1.bn2.act E (h1.lin.apply ?_))
        rw [h1.linIn]
        exact h1.bn1.act E fun i ch hlt => (this i ch hlt).symm

theorem NetEq.logits {a o : ℕ} {N N' : NetSmall 3} (h : NetEq a o N N') (E : NetEnv)
    (hd : E.training = true → DropCols E.drop1 ∧ DropCols E.drop2) (H : Hier 1 ℝ) (feats : List (List (ℕ → ℝ))) :
    SameTable o (N.logits E H feats) (N'.logits E H feats) := by
  obtain ⟨c, e, hh, w1, w2, w3, w4, w5, w6, w7, w8, w9⟩ := h.widths
  unfold NetSmall.logits
  match H.clouds with
  | [] => exact rfl
  | ob :: os =>
    dsimp only
    cases (ob.flattenFeatures feats).1 with
    | error e => exact rfl
    | ok f0 =>
      dsimp only
      have := loop_eq E h.radius w2 w3 w1 ob f0 f0 os (fun _ _ _ => rfl)
      revert this
      cases netSmallLoop (k := 1) E N ob f0 os N.levels <;> cases netSmallLoop (k := 1) E N' ob f0 os N'.levels <;> intro this
      · exact this
      · exact this.elim
      · exact this.elim
      · obtain ⟨n, f, g, rfl, rfl, hfg⟩ := this
        dsimp only [SameTable]
        rw [List.forall₂_iff_get]
        refine ⟨by simp, fun i h1 h2 ch hlt => ?_⟩
        simp only [List.get_eq_getElem, List.getElem_ofFn]
        exact head_eq E hd w4 w5 w6 w7 w8 w9 hfg _ ch hlt

theorem LevelsEq.sizes {a c : ℕ} {ls ls' : List (LevelSmall 3)} (h : LevelsEq a c ls ls') :
    ls'.map LevelSmall.sampleRadius = ls.map LevelSmall.sampleRadius := by
  induction h with
  | nil a => rfl
  | cons h hs ih => rw [List.map_cons, List.map_cons, ih, h.sample]

theorem NetEq.call {a o : ℕ} {N N' : NetSmall 3} (h : NetEq a o N N') (E : NetEnv)
    (hd : E.training = true → DropCols E.drop1 ∧ DropCols E.drop2) (lower : String → String) (mode : String) (B V : ℕ)
    (points : List (List (Fin 3 → ℝ))) (feats : List (List (ℕ → ℝ))) (sizes : List ℕ) (res : Except Err (List (ℕ → ℝ)))
    (hres : N.Call (k := 1) E lower mode B V points feats sizes res) :
    ∃ res', N'.Call (k := 1) E lower mode B V points feats sizes res' ∧ SameTable o res res' := by
  have hsz : N'.sizes = N.sizes := by
    obtain ⟨c, e, hh, w1, _⟩ := h.widths
    unfold NetSmall.sizes
    rw [w1.sizes, h.sample]
  unfold NetSmall.Call at hres ⊢
  cases ho : CloudObj.newPadded [points.length] V points (some sizes) (some B) with
  | error e =>
    rw [ho] at hres
    exact ⟨.error e, rfl, by rw [hres]; exact rfl⟩
  | ok ob =>
    rw [ho] at hres
    dsimp only at hres ⊢
    rw [hsz]
    rcases hres with ⟨e, he, rfl⟩ | ⟨H, hH, rfl⟩
    · exact ⟨.error e, Or.inl ⟨e, he, rfl⟩, rfl⟩
    · exact ⟨_, Or.inr ⟨H, hH, rfl⟩, h.logits E hd H feats⟩

theorem NetEq.call_back {a o : ℕ} {N N' : NetSmall 3} (h : NetEq a o N N') (E : NetEnv)
    (hd : E.training = true → DropCols E.drop1 ∧ DropCols E.drop2) (lower : String → String) (mode : String) (B V : ℕ)
    (points : List (List (Fin 3 → ℝ))) (feats : List (List (ℕ → ℝ))) (sizes : List ℕ) (res : Except Err (List (ℕ → ℝ)))
    (hres : N'.Call (k := 1) E lower mode B V points feats sizes res) :
    ∃ res', N.Call (k := 1) E lower mode B V points feats sizes res' ∧ SameTable o res' res := by
  have hsz : N'.sizes = N.sizes := by
    obtain ⟨c, e, hh, w1, _⟩ := h.widths
    unfold NetSmall.sizes
    rw [w1.sizes, h.sample]
  unfold NetSmall.Call at hres ⊢
  cases ho : CloudObj.newPadded [points.length] V points (some sizes) (some B) with
  | error e =>
    rw [ho] at hres
    exact ⟨.error e, rfl, by rw [hres]; exact rfl⟩
  | ok ob =>
    rw [ho] at hres
    dsimp only at hres ⊢
    rw [hsz] at hres
    rcases hres with ⟨e, he, rfl⟩ | ⟨H, hH, rfl⟩
    · exact ⟨.error e, Or.inl ⟨e, he, rfl⟩, rfl⟩
    · exact ⟨_, Or.inr ⟨H, hH, rfl⟩, h.logits E hd H feats⟩

/-! ### Construction -/

/-- A linear layer as constructed with `a` inputs. -/
def mkLin (a : ℕ) (v : (ℕ → ℕ → ℝ) × (ℕ → ℝ)) : Lin := ⟨a, v.1, v.2⟩

/-- What the loop of the constructor appends: `w i` are the numbers of features. -/
theorem encoder_ok (ty : String) (fs : List ℕ) (v : SmallVals) (L : ℕ) : ∀ (r i : ℕ) (cs bs cs' bs'), i + r = L →
    smallEncoder ty fs v L i r cs bs = .ok (cs', bs') →
    (∀ j, i ≤ j → j < L → ∃ a c conv, fs[j]? = some a ∧ fs[j + 1]? = some c ∧ smallConv ty a c (v.conv j) = .ok conv) ∧
    ∀ conv : ℕ → NetConv 3, (∀ j, i ≤ j → j < L → smallConv ty (fs.getD j 0) (fs.getD (j + 1) 0) (v.conv j) = .ok (conv j)) →
      0 < r →
      cs' = cs ++ (List.range' i (r - 1)).flatMap (fun j => [.inl (conv j, fs.getD (j + 1) 0),
        .inr (mkLin (fs.getD (j + 1) 0) (v.lin j), fs.getD (j + 1) 0)]) ++ [.inl (conv (L - 1), fs.getD L 0)] ∧
      bs' = bs ++ (List.range' i (r - 1)).flatMap (fun j => [(smallBn (v.bn (2 * j)), fs.getD (j + 1) 0),
        (smallBn (v.bn (2 * j + 1)), fs.getD (j + 1) 0)]) := by
  intro r
  induction r with
  | zero =>
    intro i cs bs cs' bs' hi h
    exact ⟨fun j h1 h2 => by omega, fun _ _ h0 => absurd h0 (by omega)⟩
  | succ r ih =>
    intro i cs bs cs' bs' hi h
    rw [smallEncoder] at h
    cases ha : fs[i]? with
    | none => rw [ha] at h; cases h
    | some a =>
      cases hc : fs[i + 1]? with
      | none => rw [ha, hc] at h; cases h
      | some c =>
        rw [ha, hc] at h
        dsimp only at h
        cases hconv : smallConv ty a c (v.conv i) with
        | error e => rw [hconv] at h; cases h
        | ok conv0 =>
          rw [hconv] at h
          dsimp only at h
          have ga : fs.getD i 0 = a := by rw [List.getD_eq_getElem?_getD, ha]; rfl
          have gc : fs.getD (i + 1) 0 = c := by rw [List.getD_eq_getElem?_getD, hc]; rfl
          by_cases hlt : i < L - 1
          · rw [if_pos hlt] at h
            obtain ⟨h1, h2⟩ := ih (i + 1) _ _ _ _ (by omega) h
            refine ⟨fun j hj hjL => ?_, fun conv hcv _ => ?_⟩
            · rcases Nat.eq_or_lt_of_le hj with rfl | hj'
              · exact ⟨a, c, conv0, ha, hc, hconv⟩
              · exact h1 j hj' hjL
            · have e0 : conv i = conv0 := by
                have := hcv i le_rfl (by omega)
                rw [ga, gc, hconv] at this
                exact (Except.ok.inj this).symm
              obtain ⟨k1, k2⟩ := h2 conv (fun j hj => hcv j (by omega)) (by omega)
              obtain ⟨q, rfl⟩ : ∃ q, r = q + 1 := ⟨r - 1, by omega⟩
              rw [k1, k2]
              simp only [Nat.add_sub_cancel, List.range'_succ, List.flatMap_cons, List.append_assoc, e0, gc, mkLin]
              exact ⟨trivial, trivial⟩
          · rw [if_neg hlt] at h
            obtain rfl : r = 0 := by omega
            rw [smallEncoder] at h
            obtain ⟨rfl, rfl⟩ := Prod.mk.inj (Except.ok.inj h)
            refine ⟨fun j hj hjL => ?_, fun conv hcv _ => ?_⟩
            · obtain rfl : j = i := by omega
              exact ⟨a, c, conv0, ha, hc, hconv⟩
            · have e0 : conv i = conv0 := by
                have := hcv i le_rfl (by omega)
                rw [ga, gc, hconv] at this
                exact (Except.ok.inj this).symm
              obtain rfl : L = i + 1 := by omega
              rw [← e0, ← gc]
              exact ⟨(List.append_nil cs).symm ▸ rfl, (List.append_nil bs).symm⟩

/-- The lists of a constructed model. -/
structure SmallBuilt (ty : String) (fs : List ℕ) (sr cr : List ℝ) (v : SmallVals) (conv : ℕ → NetConv 3) (M : SmallObj) : Prop where
  pos : 0 < sr.length
  len : sr.length < fs.length
  convOk : ∀ j < sr.length, smallConv ty (fs.getD j 0) (fs.getD (j + 1) 0) (v.conv j) = .ok (conv j)
  convs : M.convs = (List.range' 0 (sr.length - 1)).flatMap (fun j => [.inl (conv j, fs.getD (j + 1) 0),
        .inr (mkLin (fs.getD (j + 1) 0) (v.lin j), fs.getD (j + 1) 0)]) ++ [.inl (conv (sr.length - 1), fs.getD sr.length 0)]
  bns : M.bns = (List.range' 0 (sr.length - 1)).flatMap (fun j => [(smallBn (v.bn (2 * j)), fs.getD (j + 1) 0),
        (smallBn (v.bn (2 * j + 1)), fs.getD (j + 1) 0)]) ++
      [(smallBn (v.bn (2 * (sr.length - 1))), fs.getD sr.length 0),
        (smallBn (v.bn (2 * (sr.length - 1) + 1)), fs.reverse.getD 1 0)]
  denses : M.denses = [(mkLin (fs.getD sr.length 0) (v.dense 0), fs.reverse.getD 1 0),
    (mkLin (fs.reverse.getD 1 0) (v.dense 1), fs.reverse.getD 0 0)]
  sample : M.sampleRadii = sr
  radii : M.convRadii = cr

theorem built_of_new {ty : String} {fs : List ℕ} {sr cr : List ℝ} {v : SmallVals} {M : SmallObj}
    (h : SmallObj.new ty fs sr cr v = .ok M) (hpos : 0 < sr.length) : ∃ conv, SmallBuilt ty fs sr cr v conv M := by
  unfold SmallObj.new at h
  dsimp only at h
  cases he : smallEncoder ty fs v sr.length 0 sr.length [] [] with
  | error e => rw [he] at h; cases h
  | ok cb =>
    obtain ⟨cs, bs⟩ := cb
    rw [he] at h
    dsimp only at h
    obtain ⟨h1, h2⟩ := encoder_ok ty fs v sr.length sr.length 0 [] [] cs bs (by omega) he
    have hex : ∀ j, ∃ conv, j < sr.length → smallConv ty (fs.getD j 0) (fs.getD (j + 1) 0) (v.conv j) = .ok conv := by
      intro j
      by_cases hj : j < sr.length
      · obtain ⟨a, c, conv, ha, hc, hcv⟩ := h1 j (Nat.zero_le _) hj
        exact ⟨conv, fun _ => by rw [List.getD_eq_getElem?_getD, List.getD_eq_getElem?_getD, ha, hc]; exact hcv⟩
      · exact ⟨.pc ⟨0, 0, fun _ _ => 0, fun _ => 0, fun _ _ => 0, fun _ => 0, fun _ => 0, fun _ => 0, 0⟩, fun h => absurd h hj⟩
    choose conv hconv using hex
    obtain ⟨k1, k2⟩ := h2 conv (fun j _ hj => hconv j hj) hpos
    cases hL : fs[sr.length]? with
    | none => rw [hL] at h; cases h
    | some c =>
      cases hh : fs.reverse[1]? with
      | none => rw [hL, hh] at h; cases h
      | some hid =>
        cases ho : fs.reverse[0]? with
        | none => rw [hL, hh, ho] at h; cases h
        | some o =>
          rw [hL, hh, ho] at h
          obtain rfl := Except.ok.inj h
          have gL : fs.getD sr.length 0 = c := by rw [List.getD_eq_getElem?_getD, hL]; rfl
          have gh : fs.reverse.getD 1 0 = hid := by rw [List.getD_eq_getElem?_getD, hh]; rfl
          have go : fs.reverse.getD 0 0 = o := by rw [List.getD_eq_getElem?_getD, ho]; rfl
          refine ⟨conv, hpos, (List.getElem?_eq_some_iff.mp hL).1, hconv, ?_, ?_, ?_, rfl, rfl⟩
          · rw [k1]; simp
          · rw [k2, gL, gh]; simp
          · rw [gL, gh, go]; rfl

/-! ### Entries by position -/

theorem flatMap_two {X : Type*} (a b : ℕ → X) (n : ℕ) (rest : List X) :
    (∀ i < n, ((List.range' 0 n).flatMap (fun j => [a j, b j]) ++ rest)[i * 2]? = some (a i)) ∧
    (∀ i < n, ((List.range' 0 n).flatMap (fun j => [a j, b j]) ++ rest)[i * 2 + 1]? = some (b i)) ∧
    ∀ i, ((List.range' 0 n).flatMap (fun j => [a j, b j]) ++ rest)[n * 2 + i]? = rest[i]? := by
  induction n generalizing rest with
  | zero => simp
  | succ n ih =>
    have e : (List.range' 0 (n + 1)).flatMap (fun j => [a j, b j]) ++ rest =
        (List.range' 0 n).flatMap (fun j => [a j, b j]) ++ ([a n, b n] ++ rest) := by
      rw [List.range'_concat]; simp
    obtain ⟨h1, h2, h3⟩ := ih ([a n, b n] ++ rest)
    rw [e]
    refine ⟨fun i hi => ?_, fun i hi => ?_, fun i => ?_⟩
    · rcases Nat.lt_succ_iff_lt_or_eq.mp hi with hlt | rfl
      · exact h1 i hlt
      · have := h3 0
        rw [Nat.add_zero] at this
        rw [this]; rfl
    · rcases Nat.lt_succ_iff_lt_or_eq.mp hi with hlt | rfl
      · exact h2 i hlt
      · rw [h3 1]; rfl
    · rw [show (n + 1) * 2 + i = n * 2 + (i + 2) by ring, h3]
      simp

theorem levels_of {M : SmallObj} (l : ℕ → LevelSmall 3) : ∀ (r i : ℕ), (∀ j, i ≤ j → j < i + r → M.level j = some (l j)) →
    M.levels i r = some ((List.range' i r).map l) := by
  intro r
  induction r with
  | zero => intro i _; rfl
  | succ r ih =>
    intro i h
    rw [SmallObj.levels, h i le_rfl (by omega), ih (i + 1) fun j h1 h2 => h j (by omega) (by omega)]
    rfl

/-- The network of a constructed model. -/
noncomputable def builtNet (fs : List ℕ) (sr cr : List ℝ) (v : SmallVals) (conv : ℕ → NetConv 3) : NetSmall 3 where
  levels := (List.range' 0 (sr.length - 1)).map (fun j => ⟨conv j, smallBn (v.bn (2 * j)),
    mkLin (fs.getD (j + 1) 0) (v.lin j), smallBn (v.bn (2 * j + 1)), sr.getD j 0, cr.getD j 0⟩)
  last := conv (sr.length - 1)
  lastSampleRadius := sr.getD (sr.length - 1) 0
  lastConvRadius := cr.getD (sr.length - 1) 0
  head := ⟨smallBn (v.bn (2 * (sr.length - 1))), mkLin (fs.getD sr.length 0) (v.dense 0),
    smallBn (v.bn (2 * (sr.length - 1) + 1)), mkLin (fs.reverse.getD 1 0) (v.dense 1)⟩

theorem getD_some {X : Type*} (l : List X) {i : ℕ} (h : i < l.length) (d : X) : l[i]? = some (l.getD i d) := by
  rw [List.getD_eq_getElem?_getD, List.getElem?_eq_getElem h]; rfl

theorem SmallBuilt.net {ty : String} {fs : List ℕ} {sr cr : List ℝ} {v : SmallVals} {conv : ℕ → NetConv 3} {M : SmallObj}
    (h : SmallBuilt ty fs sr cr v conv M) (hcr : cr.length = sr.length) : M.net = some (builtNet fs sr cr v conv) := by
  have hp := h.pos
  obtain ⟨c1, c2, c3⟩ := flatMap_two (fun j => (Sum.inl (conv j, fs.getD (j + 1) 0) : (NetConv 3 × ℕ) ⊕ (Lin × ℕ)))
    (fun j => .inr (mkLin (fs.getD (j + 1) 0) (v.lin j), fs.getD (j + 1) 0)) (sr.length - 1)
    [.inl (conv (sr.length - 1), fs.getD sr.length 0)]
  obtain ⟨b1, b2, b3⟩ := flatMap_two (fun j => (smallBn (v.bn (2 * j)), fs.getD (j + 1) 0))
    (fun j => (smallBn (v.bn (2 * j + 1)), fs.getD (j + 1) 0)) (sr.length - 1)
    [(smallBn (v.bn (2 * (sr.length - 1))), fs.getD sr.length 0),
        (smallBn (v.bn (2 * (sr.length - 1) + 1)), fs.reverse.getD 1 0)]
  rw [← h.convs] at c1 c2 c3
  rw [← h.bns] at b1 b2 b3
  have hlev := levels_of (M := M) (fun j => ⟨conv j, smallBn (v.bn (2 * j)),
    mkLin (fs.getD (j + 1) 0) (v.lin j), smallBn (v.bn (2 * j + 1)), sr.getD j 0, cr.getD j 0⟩) (sr.length - 1) 0
    (fun j _ hj => by
      unfold SmallObj.level
      rw [c1 j (by omega), c2 j (by omega), b1 j (by omega), b2 j (by omega), h.sample, h.radii,
        getD_some sr (by omega) 0, getD_some cr (by omega) 0])
  have hrev : M.bns.reverse = (smallBn (v.bn (2 * (sr.length - 1) + 1)), fs.reverse.getD 1 0) ::
      (smallBn (v.bn (2 * (sr.length - 1))), fs.getD sr.length 0) ::
        ((List.range' 0 (sr.length - 1)).flatMap (fun j => [(smallBn (v.bn (2 * j)), fs.getD (j + 1) 0),
          (smallBn (v.bn (2 * j + 1)), fs.getD (j + 1) 0)])).reverse := by
    rw [h.bns, List.reverse_append]; rfl
  have hlast := c3 0
  rw [Nat.add_zero] at hlast
  unfold SmallObj.net
  dsimp only
  rw [h.sample, h.radii, hlev, hlast, getD_some sr (by omega) 0, getD_some cr (by omega) 0, hrev, h.denses]
  rfl

/-! ### Restoring -/

/-- Specification: two convolutions with `c` outputs that were constructed with the same arguments and, for `KPConv`, the
same kernel points. -/
def NetConv.SameArgs (c : ℕ) : NetConv 3 → NetConv 3 → Prop
  | .mc L, .mc L' => L.SameArgs L' ∧ L.mlps ≠ 0 ∧ L.cout % L.mlps = 0 ∧ L.layers ≠ [] ∧ L.cout = c
  | .pc L, .pc L' => L'.cin = L.cin ∧ L'.hid = L.hid
  | .kp L, .kp L' => L.SameArgs L' ∧ L'.kp = L.kp
  | _, _ => False

theorem conv_restore {c : ℕ} {L L' : NetConv 3} (h : NetConv.SameArgs c L L') :
    ∃ L'', L'.load c (L.save c) = some L'' ∧ ConvEq c L L'' := by
  match L, L', h with
  | .mc L, .mc L', ⟨h1, h2, h3, h4, h5⟩ =>
    obtain ⟨L'', e, hL⟩ := C152_mcconv (k := 1) L L' h1 h2 h3 h4
    refine ⟨.mc L'', by unfold NetConv.load NetConv.save; dsimp only; rw [e]; rfl, fun E cin cout radius f g hfg => ?_⟩
    rw [conv_feats (k := 1) E (.mc L) cin cout radius hfg]
    rw [h5] at hL
    exact hL E.ker E.act E.dev E.eps cin cout radius (1 / 5) g
  | .pc L, .pc L', ⟨h1, h2⟩ =>
    obtain ⟨L'', e, hL⟩ := C152_pointconv (k := 1) c L L' h1 h2
    refine ⟨.pc L'', by unfold NetConv.load NetConv.save; dsimp only; rw [e]; rfl, fun E cin cout radius f g hfg => ?_⟩
    rw [conv_feats (k := 1) E (.pc L) cin cout radius hfg]
    exact hL E.ker E.act E.dev E.eps cin cout radius (1 / 5) g
  | .kp L, .kp L', ⟨h1, h2⟩ =>
    obtain ⟨L'', e, ha, hk⟩ := kp_load c L L' h1
    refine ⟨.kp L'', by unfold NetConv.load NetConv.save; dsimp only; rw [e]; rfl, fun E cin cout radius f g hfg => ?_⟩
    rw [conv_feats (k := 1) E (.kp L) cin cout radius hfg]
    have := kpcall_agree (k := 1) ha (fun b _ => by rw [hk, h2]) E.dev E.eps cin cout radius none g
    unfold NetConv.call
    dsimp only
    revert this
    cases L''.call E.dev E.eps cin cout radius none g <;> cases L.call E.dev E.eps cin cout radius none g <;> intro this
    · exact this
    · exact this.elim
    · exact this.elim
    · rename_i x y
      obtain ⟨n, x⟩ := x
      obtain ⟨n', y⟩ := y
      obtain ⟨rfl, hxy⟩ := this
      dsimp only at hxy ⊢
      by_cases hn : n = cout.n
      · rw [if_pos hn, if_pos hn]
        exact fun i o ho => hxy _ o ho
      · rw [if_neg hn, if_neg hn]
        exact rfl

theorem lin_restore {c : ℕ} {l l' : Lin} (h : l'.cin = l.cin) : ∃ l'', l'.load c (l.save c) = some l'' ∧ LinEq c l l'' := by
  refine ⟨⟨l'.cin, unVar2 c (var2 l.cin c l.w), unVar2 c (var2 1 c (fun _ => l.b)) 0⟩, ?_, h, ?_, ?_⟩
  · unfold Lin.load Lin.save conv1x1Save
    dsimp only
    rw [if_pos ⟨by rw [var2_length, h], var2_length _ _ _⟩]
  · exact fun a ha o ho => unVar2_var2 _ _ _ ha ho
  · exact fun o ho => unVar2_var2 1 _ _ one_pos ho

theorem bn_restore {c : ℕ} {b b' : BNorm} (h : b'.eps = b.eps) : ∃ b'', b'.load c (b.save c) = some b'' ∧ BnEq c b b'' := by
  refine ⟨⟨unVar2 c (var2 1 c (fun _ => b.gamma)) 0, unVar2 c (var2 1 c (fun _ => b.beta)) 0, unVar2 c (var2 1 c (fun _ => b.mean)) 0,
    unVar2 c (var2 1 c (fun _ => b.var)) 0, b'.eps⟩, ?_, h, fun ch hc => ⟨?_, ?_, ?_, ?_⟩⟩
  · unfold BNorm.load BNorm.save
    dsimp only
    rw [if_pos ⟨var2_length _ _ _, var2_length _ _ _, var2_length _ _ _, var2_length _ _ _⟩]
  all_goals exact unVar2_var2 1 _ _ one_pos hc

theorem assignAll_of {X : Type} {load : X → List (List ℝ) → Option X} {save : X → List (List ℝ)} {R S : X → X → Prop}
    (h : ∀ x x', R x x' → ∃ y, load x' (save x) = some y ∧ S x y) {xs xs' : List X} (hx : List.Forall₂ R xs xs') :
    ∃ ys, assignAll load xs' (xs.map save) = some ys ∧ List.Forall₂ S xs ys := by
  induction hx with
  | nil => exact ⟨[], rfl, .nil⟩
  | cons hr _ ih =>
    obtain ⟨y, e, hs⟩ := h _ _ hr
    obtain ⟨ys, es, hss⟩ := ih
    refine ⟨y :: ys, ?_, .cons hs hss⟩
    rw [List.map_cons, assignAll, e, es]

/-- Entries of `conv_layers` constructed with the same arguments. -/
def EntryArgs : (NetConv 3 × ℕ) ⊕ (Lin × ℕ) → (NetConv 3 × ℕ) ⊕ (Lin × ℕ) → Prop
  | .inl c, .inl c' => c'.2 = c.2 ∧ NetConv.SameArgs c.2 c.1 c'.1
  | .inr l, .inr l' => l'.2 = l.2 ∧ l'.1.cin = l.1.cin
  | _, _ => False

/-- Entries of `conv_layers` that agree. -/
def EntryEq : (NetConv 3 × ℕ) ⊕ (Lin × ℕ) → (NetConv 3 × ℕ) ⊕ (Lin × ℕ) → Prop
  | .inl c, .inl c' => ConvEq c.2 c.1 c'.1
  | .inr l, .inr l' => LinEq l.2 l.1 l'.1
  | _, _ => False

theorem entry_restore (x x' : (NetConv 3 × ℕ) ⊕ (Lin × ℕ)) (h : EntryArgs x x') :
    ∃ y, loadConv x' (saveConv x) = some y ∧ EntryEq x y := by
  match x, x', h with
  | .inl c, .inl c', ⟨h1, h2⟩ =>
    obtain ⟨y, e, hy⟩ := conv_restore h2
    refine ⟨.inl (y, c'.2), ?_, hy⟩
    unfold loadConv saveConv
    dsimp only
    rw [h1, e]; rfl
  | .inr l, .inr l', ⟨h1, h2⟩ =>
    obtain ⟨y, e, hy⟩ := lin_restore (c := l.2) h2
    refine ⟨.inr (y, l'.2), ?_, hy⟩
    unfold loadConv saveConv
    dsimp only
    rw [h1, e]; rfl

theorem forall₂_getElem {X Y : Type*} {R : X → Y → Prop} {xs : List X} {ys : List Y} (h : List.Forall₂ R xs ys) :
    ∀ {i : ℕ} {x : X}, xs[i]? = some x → ∃ y, ys[i]? = some y ∧ R x y := by
  induction h with
  | nil => intro i x hx; simp at hx
  | cons hr _ ih =>
    intro i x hx
    cases i with
    | zero => simp at hx; subst hx; exact ⟨_, rfl, hr⟩
    | succ i => exact ih (by simpa using hx)

theorem smallConv_args {ty : String} {a c : ℕ} {v v' : ConvVals} {L L' : NetConv 3} (h : smallConv ty a c v = .ok L)
    (h' : smallConv ty a c v' = .ok L') (hang : ty = "KPConv" → v'.ang = v.ang) : L.inputs = a ∧ NetConv.SameArgs c L L' := by
  unfold smallConv at h h'
  by_cases h1 : ty = "MCConv"
  · rw [if_pos h1] at h h'
    unfold MCLayer.new at h h'
    by_cases hd : c % 4 ≠ 0
    · rw [if_neg (by decide), if_pos hd] at h; cases h
    · rw [if_neg (by decide), if_neg hd, if_neg (by simp)] at h h'
      obtain rfl := Except.ok.inj h
      obtain rfl := Except.ok.inj h'
      exact ⟨rfl, ⟨rfl, rfl, rfl, rfl⟩, four_ne_zero, not_not.mp hd, by simp, rfl⟩
  · rw [if_neg h1] at h h'
    by_cases h2 : ty = "PointConv"
    · rw [if_pos h2] at h h'
      obtain rfl := Except.ok.inj h
      obtain rfl := Except.ok.inj h'
      exact ⟨rfl, rfl, rfl⟩
    · rw [if_neg h2] at h h'
      by_cases h3 : ty = "KPConv"
      · rw [if_pos h3] at h h'
        unfold KPLayer.builtin at h h'
        rw [hang h3] at h'
        cases hk : sphericalKernelPoints 15 (some v.ang) with
        | error e => rw [hk] at h; cases h
        | ok pts =>
          rw [hk] at h h'
          obtain rfl := Except.ok.inj h
          obtain rfl := Except.ok.inj h'
          exact ⟨rfl, ⟨rfl, rfl, rfl, rfl, rfl⟩, rfl⟩
      · rw [if_neg h3] at h; cases h

theorem forall₂_flatMap_two {X Y : Type*} {R : X → Y → Prop} {a b : ℕ → X} {a' b' : ℕ → Y} (l : List ℕ)
    (h : ∀ i ∈ l, R (a i) (a' i) ∧ R (b i) (b' i)) :
    List.Forall₂ R (l.flatMap fun j => [a j, b j]) (l.flatMap fun j => [a' j, b' j]) := by
  induction l with
  | nil => exact .nil
  | cons i l ih =>
    rw [List.flatMap_cons, List.flatMap_cons]
    exact .cons (h i (by simp)).1 (.cons (h i (by simp)).2 (ih fun j hj => h j (by simp [hj])))

theorem forall₂_append' {X Y : Type*} {R : X → Y → Prop} {xs xs' : List X} {ys ys' : List Y} (h : List.Forall₂ R xs ys)
    (h' : List.Forall₂ R xs' ys') : List.Forall₂ R (xs ++ xs') (ys ++ ys') := by
  induction h with
  | nil => exact h'
  | cons hr _ ih => exact .cons hr ih

theorem levelsEq_of (w : ℕ → ℕ) (l l' : ℕ → LevelSmall 3) : ∀ (r i : ℕ),
    (∀ j, i ≤ j → j < i + r → LevelEq (w j) (w (j + 1)) (l j) (l' j)) →
    LevelsEq (w i) (w (i + r)) ((List.range' i r).map l) ((List.range' i r).map l') := by
  intro r
  induction r with
  | zero => intro i _; exact .nil _
  | succ r ih =>
    intro i h
    have := ih (i + 1) fun j h1 h2 => h j (by omega) (by omega)
    rw [show i + 1 + r = i + (r + 1) by omega] at this
    exact .cons (h i le_rfl (by omega)) this

/-- **C163, restoring.** `load_weights` into a model constructed with the same arguments, whatever its initial values,
succeeds, and the network then gives the same logits (`feature_sizes[-1]` columns) and the same exceptions as the one that
was saved, in every call.  Outside training there is no condition; in training the dropout layers must use the same masks.
Missing: `KPConv` with other angles than those of the saved model, for which it is false (`C152_kpconv_false`). -/
theorem C163_restore_partial {ty : String} {fs : List ℕ} {sr cr : List ℝ} {v v' : SmallVals} {M M' : SmallObj}
    (hM : SmallObj.new ty fs sr cr v = .ok M) (hM' : SmallObj.new ty fs sr cr v' = .ok M') (hpos : 0 < sr.length)
    (hcr : cr.length = sr.length) (hang : ty = "KPConv" → ∀ i, (v'.conv i).ang = (v.conv i).ang) :
    ∃ M'' N N'', M'.load M.save = some M'' ∧ M.net = some N ∧ M''.net = some N'' ∧
      ∀ (E : NetEnv), (E.training = true → DropCols E.drop1 ∧ DropCols E.drop2) →
        ∀ (lower : String → String) (mode : String) (B V : ℕ) (points : List (List (Fin 3 → ℝ)))
          (feats : List (List (ℕ → ℝ))) (sizes : List ℕ) (res : Except Err (List (ℕ → ℝ))),
          (N.Call (k := 1) E lower mode B V points feats sizes res →
            ∃ res', N''.Call (k := 1) E lower mode B V points feats sizes res' ∧ SameTable (fs.reverse.getD 0 0) res res') ∧
          (N''.Call (k := 1) E lower mode B V points feats sizes res →
            ∃ res', N.Call (k := 1) E lower mode B V points feats sizes res' ∧ SameTable (fs.reverse.getD 0 0) res' res) := by
  obtain ⟨conv, hb⟩ := built_of_new hM hpos
  obtain ⟨conv', hb'⟩ := built_of_new hM' hpos
  have hargs : ∀ j < sr.length, (conv j).inputs = fs.getD j 0 ∧ NetConv.SameArgs (fs.getD (j + 1) 0) (conv j) (conv' j) :=
    fun j hj => smallConv_args (hb.convOk j hj) (hb'.convOk j hj) (fun h => hang h j)
  have hlt : ∀ j ∈ List.range' 0 (sr.length - 1), j < sr.length - 1 := fun j hj => by
    have := (List.mem_range'_1.mp hj).2; omega
  have f1 : List.Forall₂ EntryArgs M.convs M'.convs := by
    rw [hb.convs, hb'.convs]
    refine forall₂_append' (forall₂_flatMap_two _ fun j hj => ?_) (.cons ?_ .nil)
    · exact ⟨⟨rfl, (hargs j (by have := hlt j hj; omega)).2⟩, rfl, rfl⟩
    · have := (hargs (sr.length - 1) (by omega)).2
      rw [Nat.sub_add_cancel hpos] at this
      exact ⟨rfl, this⟩
  have f2 : List.Forall₂ (fun b b' : BNorm × ℕ => b'.2 = b.2 ∧ b'.1.eps = b.1.eps) M.bns M'.bns := by
    rw [hb.bns, hb'.bns]
    exact forall₂_append' (forall₂_flatMap_two _ fun j hj => ⟨⟨rfl, rfl⟩, rfl, rfl⟩) (.cons ⟨rfl, rfl⟩ (.cons ⟨rfl, rfl⟩ .nil))
  have f3 : List.Forall₂ (fun l l' : Lin × ℕ => l'.2 = l.2 ∧ l'.1.cin = l.1.cin) M.denses M'.denses := by
    rw [hb.denses, hb'.denses]
    exact .cons ⟨rfl, rfl⟩ (.cons ⟨rfl, rfl⟩ .nil)
  obtain ⟨cs, e1, g1⟩ := assignAll_of (S := EntryEq) entry_restore f1
  obtain ⟨bs, e2, g2⟩ := assignAll_of (load := fun b : BNorm × ℕ => fun vs => (b.1.load b.2 vs).map (fun b' => (b', b.2)))
    (save := fun b => b.1.save b.2) (S := fun b b' => BnEq b.2 b.1 b'.1)
    (fun b b' h => by
      obtain ⟨y, e, hy⟩ := bn_restore (c := b.2) h.2
      exact ⟨(y, b'.2), by rw [h.1, e]; rfl, hy⟩) f2
  obtain ⟨ds, e3, g3⟩ := assignAll_of (load := fun b : Lin × ℕ => fun vs => (b.1.load b.2 vs).map (fun b' => (b', b.2)))
    (save := fun b => b.1.save b.2) (S := fun b b' => LinEq b.2 b.1 b'.1)
    (fun b b' h => by
      obtain ⟨y, e, hy⟩ := lin_restore (c := b.2) h.2
      exact ⟨(y, b'.2), by rw [h.1, e]; rfl, hy⟩) f3
  have hload : M'.load M.save = some ⟨cs, bs, ds, M'.sampleRadii, M'.convRadii⟩ := by
    unfold SmallObj.load SmallObj.save
    dsimp only
    rw [e1, e2, e3]
  obtain ⟨M'', hM2⟩ : ∃ M'' : SmallObj, M'' = ⟨cs, bs, ds, M'.sampleRadii, M'.convRadii⟩ := ⟨_, rfl⟩
  have q1 : M''.convs = cs := by rw [hM2]
  have q2 : M''.bns = bs := by rw [hM2]
  have q3 : M''.denses = ds := by rw [hM2]
  have q4 : M''.sampleRadii = sr := by rw [hM2]; exact hb'.sample
  have q5 : M''.convRadii = cr := by rw [hM2]; exact hb'.radii
  obtain ⟨c1, c2, c3⟩ := flatMap_two (fun j => (Sum.inl (conv j, fs.getD (j + 1) 0) : (NetConv 3 × ℕ) ⊕ (Lin × ℕ)))
    (fun j => .inr (mkLin (fs.getD (j + 1) 0) (v.lin j), fs.getD (j + 1) 0)) (sr.length - 1)
    [.inl (conv (sr.length - 1), fs.getD sr.length 0)]
  obtain ⟨b1, b2, b3⟩ := flatMap_two (fun j => (smallBn (v.bn (2 * j)), fs.getD (j + 1) 0))
    (fun j => (smallBn (v.bn (2 * j + 1)), fs.getD (j + 1) 0)) (sr.length - 1)
    [(smallBn (v.bn (2 * (sr.length - 1))), fs.getD sr.length 0),
        (smallBn (v.bn (2 * (sr.length - 1) + 1)), fs.reverse.getD 1 0)]
  rw [← hb.convs] at c1 c2 c3
  rw [← hb.bns] at b1 b2 b3
  have hlev : ∀ j, ∃ l', j < sr.length - 1 → M''.level j = some l' ∧ LevelEq (fs.getD j 0) (fs.getD (j + 1) 0)
      ⟨conv j, smallBn (v.bn (2 * j)), mkLin (fs.getD (j + 1) 0) (v.lin j), smallBn (v.bn (2 * j + 1)), sr.getD j 0, cr.getD j 0⟩ l' := by
    intro j
    by_cases hj : j < sr.length - 1
    · obtain ⟨y1, z1, r1⟩ := forall₂_getElem g1 (c1 j hj)
      obtain ⟨y2, z2, r2⟩ := forall₂_getElem g1 (c2 j hj)
      obtain ⟨y3, z3, r3⟩ := forall₂_getElem g2 (b1 j hj)
      obtain ⟨y4, z4, r4⟩ := forall₂_getElem g2 (b2 j hj)
      match y1, y2, r1, r2 with
      | .inl y1, .inr y2, r1, r2 =>
        refine ⟨⟨y1.1, y3.1, y2.1, y4.1, sr.getD j 0, cr.getD j 0⟩, fun _ => ⟨?_, ?_⟩⟩
        · unfold SmallObj.level
          rw [q1, q2, q4, q5, z1, z2, z3, z4, getD_some sr (by omega) 0, getD_some cr (by omega) 0]
        · exact ⟨(hargs j (by omega)).1, r1, r3, rfl, r2, r4, rfl, rfl⟩
      | .inl y1, .inl y2, r1, r2 => exact r2.elim
      | .inr y1, _, r1, r2 => exact r1.elim
    · exact ⟨⟨conv j, smallBn (v.bn (2 * j)), mkLin 0 (v.lin j), smallBn (v.bn 0), 0, 0⟩, fun h => absurd h hj⟩
  choose l' hl' using hlev
  have hlevels := levels_of (M := M'') l' (sr.length - 1) 0 (fun j _ hj => (hl' j (by omega)).1)
  have hlast := c3 0
  rw [Nat.add_zero] at hlast
  obtain ⟨y, zy, ry⟩ := forall₂_getElem g1 hlast
  have hrev : M.bns.reverse = (smallBn (v.bn (2 * (sr.length - 1) + 1)), fs.reverse.getD 1 0) ::
      (smallBn (v.bn (2 * (sr.length - 1))), fs.getD sr.length 0) ::
        ((List.range' 0 (sr.length - 1)).flatMap (fun j => [(smallBn (v.bn (2 * j)), fs.getD (j + 1) 0),
          (smallBn (v.bn (2 * j + 1)), fs.getD (j + 1) 0)])).reverse := by
    rw [hb.bns, List.reverse_append]; rfl
  have g2r := List.rel_reverse g2
  have g3r := List.rel_reverse g3
  rw [hrev] at g2r
  rw [hb.denses] at g3r
  obtain ⟨p1, zp1, rp1⟩ := forall₂_getElem g2r (i := 1) rfl
  obtain ⟨p0, zp0, rp0⟩ := forall₂_getElem g2r (i := 0) rfl
  obtain ⟨d1, zd1, rd1⟩ := forall₂_getElem g3r (i := 1) rfl
  obtain ⟨d0, zd0, rd0⟩ := forall₂_getElem g3r (i := 0) rfl
  match y, ry with
  | .inl y, ry =>
    have hnet : M''.net = some ⟨(List.range' 0 (sr.length - 1)).map l', y.1, sr.getD (sr.length - 1) 0, cr.getD (sr.length - 1) 0,
        ⟨p1.1, d1.1, p0.1, d0.1⟩⟩ := by
      unfold SmallObj.net
      dsimp only
      rw [q1, q2, q3, q4, q5, hlevels, zy, getD_some sr (by omega) 0, getD_some cr (by omega) 0, zp1, zd1, zp0, zd0]
    have heq : NetEq (fs.getD 0 0) (fs.reverse.getD 0 0) (builtNet fs sr cr v conv) ⟨(List.range' 0 (sr.length - 1)).map l', y.1, sr.getD (sr.length - 1) 0,
        cr.getD (sr.length - 1) 0, ⟨p1.1, d1.1, p0.1, d0.1⟩⟩ := by
      refine ⟨⟨fs.getD (sr.length - 1) 0, fs.getD sr.length 0, fs.reverse.getD 1 0, ?_, (hargs _ (by omega)).1, ry, rp1, rfl, rd1, rp0,
        rfl, rd0⟩, rfl, rfl⟩
      have := levelsEq_of (fun j => fs.getD j 0) _ l' (sr.length - 1) 0 (fun j _ hj => (hl' j (by omega)).2)
      rw [Nat.zero_add] at this
      exact this
    exact ⟨M'', _, _, by rw [hload, hM2], hb.net hcr, hnet, fun E hd lower mode B V points feats sizes res =>
      ⟨heq.call E hd lower mode B V points feats sizes res, heq.call_back E hd lower mode B V points feats sizes res⟩⟩
  | .inr y, ry => exact ry.elim

/-- **C163, layers.** A call of a constructed model uses every layer exactly once, in the order of construction: no index is
wrong, no layer is left out or shared, the head gets the last two batch normalisations and the two dense layers. -/
theorem C163_layers {ty : String} {fs : List ℕ} {sr cr : List ℝ} {v : SmallVals} {M : SmallObj}
    (hM : SmallObj.new ty fs sr cr v = .ok M) (hpos : 0 < sr.length) (hcr : cr.length = sr.length) :
    ∃ N, M.net = some N ∧ N.levels.length + 1 = sr.length ∧
      M.convs.map (Sum.map Prod.fst Prod.fst) = N.levels.flatMap (fun l => [.inl l.conv, .inr l.lin]) ++ [.inl N.last] ∧
      M.bns.map Prod.fst = N.levels.flatMap (fun l => [l.bn1, l.bn2]) ++ [N.head.bn1, N.head.bn2] ∧
      M.denses.map Prod.fst = [N.head.dense1, N.head.dense2] ∧
      N.levels.map LevelSmall.convRadius ++ [N.lastConvRadius] = cr ∧
      N.levels.map LevelSmall.sampleRadius ++ [N.lastSampleRadius] = sr := by
  obtain ⟨conv, hb⟩ := built_of_new hM hpos
  have hradii : ∀ l : List ℝ, l.length = sr.length →
      (List.range' 0 (sr.length - 1)).map (fun j => l.getD j 0) ++ [l.getD (sr.length - 1) 0] = l := by
    intro l hl
    apply List.ext_getElem?
    intro i
    by_cases hi : i < sr.length - 1
    · rw [List.getElem?_append_left (by simpa using hi), List.getElem?_map, List.getElem?_range' hi, getD_some l (by omega) 0]
      simp
    · rw [List.getElem?_append_right (by simpa using hi)]
      simp only [List.length_map, List.length_range']
      by_cases he : i = sr.length - 1
      · rw [he, Nat.sub_self, getD_some l (by omega) 0]; rfl
      · rw [List.getElem?_eq_none (by simp; omega), List.getElem?_eq_none (by omega)]
  refine ⟨_, hb.net hcr, ?_, ?_, ?_, ?_, ?_, ?_⟩
  · simp [builtNet]; omega
  · rw [hb.convs]
    simp [builtNet, List.map_flatMap, List.flatMap_map]
  · rw [hb.bns]
    simp [builtNet, List.map_flatMap, List.flatMap_map]
  · rw [hb.denses]; rfl
  · simpa [builtNet, Function.comp_def] using hradii cr hcr
  · simpa [builtNet, Function.comp_def] using hradii sr rfl

/-! ### Examples -/

/-- All numbers of all variables equal to `x`. -/
def exVals (x : ℝ) : SmallVals :=
  ⟨fun _ => ⟨fun _ _ _ => x, fun _ _ => x, fun _ _ _ => x, fun _ _ => x, fun _ => x, fun _ _ => x, fun _ => x, fun _ => x, fun _ => x, x,
    fun _ => 0⟩, fun _ => (fun _ _ => x, fun _ => x), fun _ => ⟨fun _ => x, fun _ => x, fun _ => x, fun _ => x, 0⟩,
    fun _ => (fun _ _ => x, fun _ => x)⟩

/-- A network with two Monte Carlo convolutions can be constructed with any numbers: the theorems apply to a trained model and
a new one. -/
theorem exVals_new (x : ℝ) : ∃ M, SmallObj.new "MCConv" [1, 4, 8, 4, 3] [1 / 10, 2] [1 / 5, 4] (exVals x) = .ok M :=
  ⟨_, rfl⟩

example : ∃ M M' M'' N N'', SmallObj.new "MCConv" [1, 4, 8, 4, 3] [1 / 10, 2] [1 / 5, 4] (exVals 2) = .ok M ∧
    SmallObj.new "MCConv" [1, 4, 8, 4, 3] [1 / 10, 2] [1 / 5, 4] (exVals 1) = .ok M' ∧ M'.load M.save = some M'' ∧
    M.net = some N ∧ M''.net = some N'' ∧ N.levels.length = 1 := by
  obtain ⟨M, hM⟩ := exVals_new 2
  obtain ⟨M', hM'⟩ := exVals_new 1
  obtain ⟨M'', N, N'', h1, h2, h3, _⟩ := C163_restore_partial hM hM' (by simp) (by simp) (by simp)
  obtain ⟨N0, g1, g2, _⟩ := C163_layers hM (by simp) (by simp)
  obtain rfl : N0 = N := Option.some.inj (g1.symm.trans h2)
  exact ⟨M, M', M'', N0, N'', hM, hM', h1, h2, h3, by simpa using g2⟩

/-- Dropout is the product with a mask (`DropCols`). -/
example (mask : ∀ n, Fin n → ℕ → ℝ) : DropCols (fun n f i ch => mask n i ch * f i ch) :=
  fun n c f g h i ch hc => by dsimp only; rw [h i ch hc]

end PC
