import Verif.GpuNet
import Verif.Props.GpuHier
import Verif.Props.GpuGrad
import Verif.Props.Nets
import Verif.Props.Nets2

/-!
# C111: the classification networks on the GPU

The networks of the training scripts, run with the CUDA operations, against the same
networks on the TensorFlow model: on given levels the logits are equal, so that a run on
the GPU is one of the runs of the TensorFlow model (Poisson disk sampling), or returns the
same logits (cell averages).
-/

set_option linter.unusedVariables false

namespace PC

section
variable {k : ℕ}

/-! ## hypotheses -/

/-- The sizes of a convolution are among those the CUDA operations accept.  With a Monte
Carlo convolution the density kernel is the one of the CUDA code, with its rounded
constant (C108). -/
def NetConv.GpuOk (E : NetEnv) {D : ℕ} : NetConv D → Prop
  | .mc L => L.mlps ≠ 0 ∧ L.mlps ∣ L.cout ∧ opBasisOk (L.mlps * L.hid) = true ∧ opFeaturesOk L.cin = true ∧
      E.ker = cuGauss
  | .pc L => opBasisOk L.hid = true ∧ opFeaturesOk L.cin = true ∧ (E.ker = cuGauss ∨ E.ker = gauss)
  | .kp L => 0 < L.nk ∧ L.nk ≤ 64 ∧ L.nkp = L.nk ∧ opFeaturesOk L.cin = true

/-- The output of the convolution has at least `w` channels (only for the Monte Carlo
convolution the model distinguishes channels outside its output). -/
def NetConv.Writes {D : ℕ} : NetConv D → ℕ → Prop
  | .mc L, w => w ≤ L.cout
  | _, _ => True

/-- The layers of a block read channels that the layers before them have written; `win`
and `wout` are numbers of channels at its input and output. -/
def NetBlock.Fits {D : ℕ} (b : NetBlock D) (win wout : ℕ) : Prop :=
  b.down.cin ≤ win ∧ b.conv.Writes b.up.cin ∧
    match b.proj with
    | none => wout ≤ win
    | some (_, l) => l.cin ≤ win

/-- The same for all levels. -/
def levelsFit {D : ℕ} : ℕ → List (Level40 D) → ℕ → Prop
  | w, [], wout => wout ≤ w
  | w, l :: ls, wout => ∃ w1 w2, l.strided.Fits w w1 ∧ l.block.Fits w1 w2 ∧ levelsFit w2 ls wout

/-- The same for the network. -/
def Net40.Fits {D : ℕ} (N : Net40 D) : Prop :=
  ∃ w1 w2, N.init.Writes w1 ∧ N.block0.Fits w1 w2 ∧ levelsFit w2 N.levels N.head.dense1.cin

/-- The convolutions of the network fit the CUDA operations. -/
structure Net40.GpuOk (E : NetEnv) (N : Net40 (k + 2)) : Prop where
  ok : N.Ok
  init : N.init.GpuOk E
  block0 : N.block0.conv.GpuOk E
  levels : ∀ l ∈ N.levels, l.strided.conv.GpuOk E ∧ l.block.conv.GpuOk E
  fits : N.Fits

/-- A cloud the kernels handle: valid, not empty, and small enough for the scan to need
one pass. -/
structure GpuCloud {α : Type*} (Ws : ℕ) (c : Cloud α) : Prop where
  valid : c.Valid
  pos : 0 < c.n
  one : c.n ≤ 512 + Ws * 64

/-- Two matrices agree in the first `w` channels. -/
def EqTo (w : ℕ) {n : ℕ} (f g : Fin n → ℕ → ℝ) : Prop := ∀ i, ∀ ch < w, f i ch = g i ch

/-- In training, the first dropout layer treats each channel by itself. -/
def DropLocal (E : NetEnv) : Prop :=
  E.training = true → ∀ n w (f g : Fin n → ℕ → ℝ), EqTo w f g → EqTo w (E.drop1 n f) (E.drop1 n g)

theorem EqTo.refl (w : ℕ) {n : ℕ} (f : Fin n → ℕ → ℝ) : EqTo w f f := fun _ _ _ => rfl

theorem EqTo.mono {w w' : ℕ} {n : ℕ} {f g : Fin n → ℕ → ℝ} (h : EqTo w f g) (hw : w' ≤ w) : EqTo w' f g :=
  fun i ch hch => h i ch (by omega)

theorem EqTo.bnAct (E : NetEnv) (bn : BNorm) {w n : ℕ} {f g : Fin n → ℕ → ℝ} (h : EqTo w f g) :
    EqTo w (E.bnAct bn f) (E.bnAct bn g) := by
  intro i ch hch
  unfold NetEnv.bnAct BNorm.apply
  simp only [fun i => h i ch hch]

theorem EqTo.lin (l : Lin) {w n : ℕ} (hw : l.cin ≤ w) {f g : Fin n → ℕ → ℝ} (h : EqTo w f g) :
    l.apply f = l.apply g := by
  funext i o
  unfold Lin.apply conv1x1
  congr 1
  refine Finset.sum_congr rfl (fun x hx => ?_)
  rw [h i x (by have := Finset.mem_range.mp hx; omega)]

theorem NetConv.GpuOk.ok {E : NetEnv} {L : NetConv (k + 2)} (h : L.GpuOk E) : L.Ok := by
  cases L with
  | mc L => trivial
  | pc L => trivial
  | kp L =>
    obtain ⟨h1, _, h3, h4⟩ := h
    refine ⟨?_, h1, h3⟩
    rcases Nat.eq_zero_or_pos L.cin with h | h
    · rw [h] at h4; exact absurd h4 (by decide)
    · exact h

/-! ## layers -/

/-- A convolution on the GPU and on the TensorFlow model. -/
theorem NetConv.gpuCall_spec (hk : k ≤ 1) (E : NetEnv) (hdev : E.dev = .gpu) (heps : 0 < E.eps) {Ws : ℕ} (hW : 0 < Ws)
    {L : NetConv (k + 2)} (hL : L.GpuOk E) {cin cout : Cloud (Fin (k + 2) → ℝ)} (hin : GpuCloud Ws cin)
    (hout : GpuCloud Ws cout) (hB : cout.B = cin.B) {radius : ℝ} (hr : 0 < radius) (f : Fin cin.n → ℕ → ℝ)
    {res : Except Err (Fin cout.n → ℕ → ℝ)} (h : L.GpuCall E Ws cin cout radius f res) :
    ∃ g g', res = .ok g ∧ L.call E cin cout radius f = .ok g' ∧ ∀ w, L.Writes w → EqTo w g g' := by
  have ok : LayerOk cin cout radius E.eps := ⟨hin.valid, hr, heps⟩
  obtain ⟨g', hg'⟩ := NetConv.call_returns E hdev heps hL.ok hr hin.valid hout.valid hB hin.pos hout.pos f
  cases L with
  | mc L =>
    obtain ⟨out, hout', rfl⟩ := h
    obtain ⟨h1, h2, h3, h4, h5⟩ := hL
    refine ⟨out, g', rfl, hg', fun w hw i ch hch => ?_⟩
    rw [C108_mcconv_formula_partial E.act Ws E.eps L cin cout radius (1 / 5) hr hW hin.pos hout.pos hin.one hout.one
      (Or.inl hk) h1 h2 h3 h4 f out hout' i ch (lt_of_lt_of_le hch hw),
      C41_mcconv_formula E.ker E.act E.dev E.eps L cin cout radius (1 / 5) ok f g' hg' i ch, h5]
  | pc L =>
    obtain ⟨out, hout', rfl⟩ := h
    obtain ⟨h1, h2, h3⟩ := hL
    refine ⟨out, g', rfl, hg', fun w hw i ch hch => ?_⟩
    rcases h3 with h3 | h3
    · rw [gpuPc_formula E.act Ws E.eps L cin cout radius (1 / 5) hr hW hin.pos hout.pos hin.one hout.one
        hk h1 h2 f out hout' i ch,
        C41_pointconv_formula E.ker E.act E.dev E.eps L cin cout radius (1 / 5) ok f g' hg' i ch, h3]
    · unfold NetConv.call at hg'
      rw [h3] at hg'
      rw [C108_pointconv_partial E.act Ws E.dev E.eps L cin cout radius (1 / 5) ok hW hin.pos hout.pos hin.one hout.one
        (Or.inl hk) h1 h2 f out g' hout' hg']
  | kp L =>
    obtain ⟨r, hr', rfl⟩ := h
    obtain ⟨h1, h2, h3, h4⟩ := hL
    unfold NetConv.call at hg'
    dsimp only at hg'
    split at hg'
    · cases hg'
    rename_i n out' htf
    obtain ⟨out, rfl, hn, heq⟩ := C108_kpconv_partial Ws E.dev E.eps L cin cout radius ok none h1 h2 h3 hW hout.pos
      hout.one (Or.inl hk) h4 f r (n, out') hr' htf
    dsimp only at hn heq hg' ⊢
    rw [if_pos hn] at hg'
    cases hg'
    rw [if_pos rfl]
    refine ⟨_, _, rfl, ?_, fun w _ i ch _ => heq i ch⟩
    unfold NetConv.call
    dsimp only
    rw [htf]
    dsimp only
    rw [if_pos hn]

/-- A block on the GPU and on the TensorFlow model. -/
theorem NetBlock.gpuRun_spec (hk : k ≤ 1) (E : NetEnv) (hdev : E.dev = .gpu) (heps : 0 < E.eps) {Ws : ℕ} (hW : 0 < Ws)
    {b : NetBlock (k + 2)} (hL : b.conv.GpuOk E) {win wout : ℕ} (hfit : b.Fits win wout)
    {cin cout : Cloud (Fin (k + 2) → ℝ)} (hin : GpuCloud Ws cin)
    (hout : GpuCloud Ws cout) (hB : cout.B = cin.B) {radius pr : ℝ} (hr : 0 < radius) {ra : RadiusArg ℝ}
    (hp : (b.strided = true ∧ 0 < pr ∧ ra = .vec [pr]) ∨ (b.strided = false ∧ cout.n = cin.n))
    {f f' : Fin cin.n → ℕ → ℝ} (hf : EqTo win f f')
    {res : Except Err (Fin cout.n → ℕ → ℝ)} (h : b.GpuRun E Ws cin cout radius pr f res) :
    ∃ g g', res = .ok g ∧ b.run E cin cout radius ra f' = .ok g' ∧ EqTo wout g g' := by
  obtain ⟨fit1, fit2, fit3⟩ := hfit
  obtain ⟨r, hconv, h⟩ := h
  rw [(hf.bnAct E b.bn0).lin b.down fit1] at hconv
  obtain ⟨c, c', rfl, hc', hcc⟩ := NetConv.gpuCall_spec hk E hdev heps hW hL hin hout hB hr _ hconv
  dsimp only at h
  obtain ⟨s, hs, h⟩ := h
  have hpool : ∃ p p', s = .ok p ∧ b.pool E cin cout ra f' = .ok p' ∧ EqTo win p p' := by
    unfold NetBlock.GpuPool at hs
    unfold NetBlock.pool
    rcases hp with ⟨hst, hpr, rfl⟩ | ⟨hst, hn⟩
    · rw [if_pos hst] at hs ⊢
      obtain ⟨out, ho, rfl⟩ := hs
      have hbb : ∀ i, cout.batch i < cin.B := fun i => by rw [← hB]; exact hout.valid i
      obtain ⟨t, ht⟩ := C44_returns .max E.eps cin cout (.vec [pr]) (fun _ => pr) rfl ⟨hin.valid, hpr, fun _ => le_rfl, heps⟩
        hout.pos hbb f
      obtain ⟨t', ht'⟩ := C44_returns .max E.eps cin cout (.vec [pr]) (fun _ => pr) rfl ⟨hin.valid, hpr, fun _ => le_rfl, heps⟩
        hout.pos hbb f'
      rw [C108_max_pool Ws .gpu cin cout pr E.eps hin.valid hpr heps hW hout.pos hout.one f out t ho ht, hdev, ht']
      refine ⟨_, _, rfl, rfl, fun i ch hch => ?_⟩
      have m := C43_local_max .gpu E.eps cin cout (.vec [pr]) (fun _ => pr) rfl ⟨hin.valid, hpr, fun _ => le_rfl, heps⟩
        f t ht i ch
      have m' := C43_local_max .gpu E.eps cin cout (.vec [pr]) (fun _ => pr) rfl ⟨hin.valid, hpr, fun _ => le_rfl, heps⟩
        f' t' ht' i ch
      rw [show (fun p => f p ch) = fun p => f' p ch from funext (fun p => hf p ch hch)] at m
      dsimp only
      rw [m.unique m']
    · rw [if_neg (by simp [hst])] at hs ⊢
      rw [dif_pos hn] at hs ⊢
      exact ⟨_, _, hs, rfl, fun i ch hch => hf _ ch hch⟩
  obtain ⟨p, p', rfl, hp', hpp⟩ := hpool
  dsimp only at h
  subst h
  unfold NetBlock.run
  rw [hc']
  dsimp only
  rw [hp']
  refine ⟨_, _, rfl, rfl, ?_⟩
  intro i ch hch
  dsimp only
  rw [((hcc _ fit2).bnAct E b.bn2).lin b.up le_rfl]
  congr 1
  cases hproj : b.proj with
  | none =>
    rw [hproj] at fit3
    exact hpp i ch (lt_of_lt_of_le hch fit3)
  | some x =>
    obtain ⟨bn, l⟩ := x
    rw [hproj] at fit3
    dsimp only at fit3 ⊢
    rw [(hpp.bnAct E bn).lin l fit3]

/-- The levels on the GPU and on the TensorFlow model. -/
theorem gpuNet40Loop_spec (hk : k ≤ 1) (E : NetEnv) (hdev : E.dev = .gpu) (heps : 0 < E.eps) {Ws : ℕ} (hW : 0 < Ws)
    {B wout : ℕ} (levels : List (Level40 (k + 2)))
    (hl : ∀ l ∈ levels, l.strided.conv.Ok ∧ l.strided.strided = true ∧ l.block.conv.Ok ∧
      l.block.strided = false ∧ 0 < l.poolRadius ∧ 0 < l.convRadius)
    (hg : ∀ l ∈ levels, l.strided.conv.GpuOk E ∧ l.block.conv.GpuOk E) :
    ∀ (w : ℕ), levelsFit w levels wout → ∀ (os : List (CloudObj (Fin (k + 2) → ℝ))) (o : CloudObj (Fin (k + 2) → ℝ))
    (f f' : Fin o.c.n → ℕ → ℝ), EqTo w f f' → (∀ p ∈ o :: os, GpuCloud Ws p.c ∧ p.c.B = B) →
    ∀ res, gpuNet40Loop E Ws o f os levels res →
    (∃ e, res = .error e ∧ net40Loop E o f' os levels = .error e) ∨
    ∃ p g g', res = .ok ⟨p, g⟩ ∧ net40Loop E o f' os levels = .ok ⟨p, g'⟩ ∧ EqTo wout g g' := by
  induction levels with
  | nil =>
    intro w hfit os o f f' hf ho res h
    cases os with
    | nil => exact Or.inr ⟨o, f, f', h, rfl, hf.mono hfit⟩
    | cons q os => exact Or.inl ⟨_, h, rfl⟩
  | cons l ls ih =>
    intro w hfit os o f f' hf ho res h
    cases os with
    | nil => exact Or.inl ⟨_, h, rfl⟩
    | cons q os =>
      obtain ⟨w1, w2, fit1, fit2, fit3⟩ := hfit
      obtain ⟨l1, l2, l3, l4, l5, l6⟩ := hl l (by simp)
      obtain ⟨g1, g2⟩ := hg l (by simp)
      have a := ho o (by simp)
      have b := ho q (by simp)
      obtain ⟨r1, h1, h⟩ := h
      obtain ⟨x, x', rfl, hx', hxx⟩ := NetBlock.gpuRun_spec hk E hdev heps hW g1 fit1 a.1 b.1 (b.2.trans a.2.symm) l5
        (Or.inl ⟨l2, l5, rfl⟩) hf h1
      dsimp only at h
      obtain ⟨r2, h2, h⟩ := h
      obtain ⟨y, y', rfl, hy', hyy⟩ := NetBlock.gpuRun_spec hk E hdev heps hW g2 fit2 b.1 b.1 rfl l6
        (ra := .vec []) (Or.inr ⟨l4, rfl⟩) hxx h2
      dsimp only at h
      have := ih (fun l hx => hl l (by simp [hx])) (fun l hx => hg l (by simp [hx])) w2 fit3 os q y y' hyy
        (fun p hp => ho p (by simp at hp ⊢; tauto)) res h
      unfold net40Loop
      rw [hx']
      dsimp only
      rw [hy']
      exact this

theorem globalPool_mean_congr {D n : ℕ} {c : Cloud (Fin D → ℝ)} {w : ℕ} {f g : Fin c.n → ℕ → ℝ} (h : EqTo w f g) :
    EqTo w (fun (b : Fin c.B) ch => (globalPool .mean c f b ch).getD 0)
      (fun (b : Fin c.B) ch => (globalPool .mean c g b ch).getD 0) := by
  intro b ch hch
  dsimp only
  unfold globalPool
  simp only [fun i => h i ch hch]

theorem EqTo.dropout1 {E : NetEnv} (hd : DropLocal E) {w n : ℕ} {f g : Fin n → ℕ → ℝ} (h : EqTo w f g) :
    EqTo w (E.dropout1 f) (E.dropout1 g) := by
  unfold NetEnv.dropout1
  split
  · rename_i ht
    exact hd ht n w f g h
  · exact h

/-! ## C111 -/

/-- **C111, given levels.** On given clouds every run of the network on the GPU returns
what the TensorFlow model returns, in training and at inference. -/
theorem C111_logits_partial (hk : k ≤ 1) (E : NetEnv) (hdev : E.dev = .gpu) (heps : 0 < E.eps) (hdrop : DropLocal E)
    {Ws : ℕ} (hW : 0 < Ws) (N : Net40 (k + 2)) (hN : N.GpuOk E) (H : Hier k ℝ) (B : ℕ)
    (hcl : ∀ p ∈ H.clouds.tail, GpuCloud Ws p.c ∧ p.c.B = B) (feats : List (List (ℕ → ℝ)))
    (res : Except Err (List (ℕ → ℝ))) (h : N.GpuLogits E Ws H.clouds feats res) : res = N.logits E H feats := by
  unfold Net40.GpuLogits at h
  unfold Net40.logits
  split at h
  swap
  · rename_i hcl'
    split
    · rename_i x0 o1 os heq
      exact absurd heq (hcl' x0 o1 os)
    · exact h
  rename_i x0 o1 os heq
  rw [heq] at hcl ⊢
  rw [List.tail_cons] at hcl
  dsimp only
  split at h
  · rename_i e he
    rw [he]
    exact h
  rename_i f0 he
  rw [he]
  dsimp only
  obtain ⟨w1, w2, fit1, fit2, fit3⟩ := hN.fits
  obtain ⟨r1, h1, h⟩ := h
  have a := hcl o1 (by simp)
  obtain ⟨x, x', rfl, hx', hxx⟩ := NetConv.gpuCall_spec hk E hdev heps hW hN.init a.1 a.1 rfl hN.ok.radius0.2 f0 h1
  dsimp only at h
  obtain ⟨r2, h2, h⟩ := h
  obtain ⟨y, y', rfl, hy', hyy⟩ := NetBlock.gpuRun_spec hk E hdev heps hW hN.block0 fit2 a.1 a.1 rfl hN.ok.radius0.2
    (ra := .vec []) (Or.inr ⟨hN.ok.block0.2, rfl⟩) (hxx _ fit1) h2
  dsimp only at h
  obtain ⟨r3, h3, h⟩ := h
  rw [hx']
  dsimp only
  rw [hy']
  dsimp only
  rcases gpuNet40Loop_spec hk E hdev heps hW N.levels hN.ok.levels hN.levels w2 fit3 os o1 y y' hyy hcl r3 h3 with
    ⟨e, rfl, he⟩ | ⟨p, g, g', rfl, he, hgg⟩
  · rw [he]
    exact h
  · rw [he]
    dsimp only at h ⊢
    rw [h]
    congr 2
    unfold NetHead.run40
    rw [(((globalPool_mean_congr (n := 0) hgg).bnAct E N.head.bn1).dropout1 hdrop).lin N.head.dense1 le_rfl]

/-! ## levels of the hierarchy -/

theorem SameCloud.countIn {D : ℕ} {c c' : Cloud (Fin D → ℝ)} (h : SameCloud c c') (b : ℕ) : c'.countIn b = c.countIn b := by
  obtain ⟨_, e, h23⟩ := h
  have h3 := fun i => (h23 i).2
  unfold Cloud.countIn
  refine Finset.card_bij' (fun i _ => e.symm i) (fun i _ => e i) ?_ ?_ ?_ ?_
  · intro i hi
    simp only [Finset.mem_filter, Finset.mem_univ, true_and] at hi ⊢
    rw [← h3, e.apply_symm_apply]; exact hi
  · intro i hi
    simp only [Finset.mem_filter, Finset.mem_univ, true_and] at hi ⊢
    rw [h3]; exact hi
  · intro i _; simp
  · intro i _; simp

theorem SameCloud.n {D : ℕ} {c c' : Cloud (Fin D → ℝ)} (h : SameCloud c c') : c'.n = c.n := by
  obtain ⟨_, e, _⟩ := h
  have := Fintype.card_congr e
  rw [Fintype.card_fin, Fintype.card_fin] at this
  exact this.symm

theorem SameCloud.noEmpty {D : ℕ} {c c' : Cloud (Fin D → ℝ)} (h : SameCloud c c') (hne : c.NoEmpty) : c'.NoEmpty := by
  intro b hb
  rw [← members_pos, h.countIn, members_pos]
  exact hne b (by rw [← h.1]; exact hb)

theorem SameCloud.valid {D : ℕ} {c c' : Cloud (Fin D → ℝ)} (h : SameCloud c c') (hv : c.Valid) : c'.Valid := by
  obtain ⟨hB, e, h23⟩ := h
  have h3 := fun i => (h23 i).2
  intro i
  have := h3 (e.symm i)
  rw [e.apply_symm_apply] at this
  rw [this, hB]
  exact hv _

theorem gpuLevels_objs {Ws : ℕ} {eps : ℝ} {lower : String → String} {mode : String} {bs : Option (List ℕ)}
    {o : CloudObj (Fin (k + 2) → ℝ)} {sizes : List (Arg ℝ)} {os : List (CloudObj (Fin (k + 2) → ℝ))}
    (h : GpuLevels Ws eps lower mode bs o sizes (.ok os)) : ∀ p ∈ os, p.SizesOk ∧ p.ShapeOk := by
  generalize hr : (Except.ok os : Except Err _) = r at h
  induction h generalizing os with
  | nil o =>
    simp only [Except.ok.injEq] at hr
    subst hr
    simp
  | fail o a as e _ => simp at hr
  | failLater o a as o' e _ _ => simp at hr
  | cons o a as p rest hst _ ih =>
    simp only [Except.ok.injEq] at hr
    subst hr
    rw [List.forall_mem_cons]
    refine ⟨?_, ih rfl⟩
    cases hst with
    | ok l m c hl _ _ hb =>
      unfold CloudObj.setBatchShape at hb ⊢
      cases bs with
      | none => exact ⟨fun s hs => (by cases hs), fun s hs => (by cases hs)⟩
      | some sh =>
        dsimp only at hb ⊢
        split at hb
        · rename_i h1
          rw [if_pos h1]
          refine ⟨fun s hs => (by cases hs), fun s hs => ?_⟩
          simp only [CloudObj.ofCloud, Option.some.injEq] at hs
          subst hs
          exact h1
        · cases hb

theorem n_le_of_countIn {α : Type*} {c c' : Cloud α} (hv : c.Valid) (hv' : c'.Valid) (hB : c'.B = c.B)
    (h : ∀ b, c'.countIn b ≤ c.countIn b) : c'.n ≤ c.n := by
  rw [← members_sum c hv, ← members_sum c' hv', hB]
  apply List.sum_le_sum
  intro b _
  rw [members_length, members_length]
  exact h b

/-- The input of the networks: a non-empty batch of non-empty padded shapes. -/
theorem padded_input {V : ℕ} {points : List (List (Fin (k + 2) → ℝ))} {sizes : List ℕ} (hP : PaddedOk V points sizes)
    (hne : ∀ s ∈ sizes, 0 < s) (hB : points ≠ []) {o : CloudObj (Fin (k + 2) → ℝ)}
    (ho : CloudObj.newPadded [points.length] V points (some sizes) (some points.length) = .ok o) :
    o.c.Valid ∧ o.c.B = points.length ∧ o.c.NoEmpty ∧ 0 < o.c.n ∧ o.c.n = sizes.sum ∧
      (∀ sh, o.batchShape = some sh → sh.prod = o.c.B) ∧ ∀ b < o.c.B, o.c.countIn b ≤ V := by
  obtain ⟨_, p2, p3, p4, _, _, p7, _, p8⟩ := newPadded_spec hP.len hP.block hP.size ho
  have hBpos : 0 < points.length := List.length_pos_iff.2 hB
  have hno := padded_noEmpty hP ho hne
  refine ⟨p3, p2, hno, ?_, ?_, ?_, ?_⟩
  · obtain ⟨i, _⟩ := hno 0 (by omega)
    exact i.pos
  · have h1 := congrArg List.length p7
    rw [List.length_ofFn, flattenRows_length V _ _ hP.len.symm hP.block hP.size] at h1
    exact h1
  · intro sh hsh
    rw [p4, Option.some.injEq] at hsh
    rw [← hsh, p2]
    simp
  · intro b hb
    rw [padded_countIn hP ho, List.getD_eq_getElem?_getD, List.getElem?_eq_getElem (by rw [hP.len, ← p2]; exact hb)]
    exact hP.size _ (List.getElem_mem _)

/-- The network returns on levels without empty elements. -/
theorem Net40.logits_returns (E : NetEnv) (hdev : E.dev = .gpu) (heps : 0 < E.eps) (N : Net40 (k + 2)) (hN : N.Ok)
    {H : Hier k ℝ} {o : CloudObj (Fin (k + 2) → ℝ)} {os : List (CloudObj (Fin (k + 2) → ℝ))} (hc : H.clouds = o :: os)
    (hlen : os.length = N.sizes.length) {B V : ℕ}
    (hos : ∀ p ∈ os, LevelOk B p ∧ ∀ b < B, p.c.countIn b ≤ V) {feats : List (List (ℕ → ℝ))}
    (hf : feats.length = B) (hfV : ∀ row ∈ feats, row.length = V) : ∃ rows, N.logits E H feats = .ok rows := by
  unfold Net40.logits
  rw [hc]
  cases os with
  | nil => simp [Net40.sizes] at hlen
  | cons o1 os =>
    dsimp only
    have h1 := hos o1 (by simp)
    have hle : feats.length ≤ o1.c.n := by
      rw [hf, ← h1.1.batch, ← members_sum o1.c h1.1.valid]
      have : ((List.range o1.c.B).map (fun b => 1)).sum ≤
          ((List.range o1.c.B).map (fun b => (o1.c.members b).length)).sum := by
        apply List.sum_le_sum
        intro b hb
        rw [members_length]
        exact (members_pos b).2 (h1.1.noEmpty b (List.mem_range.1 hb))
      simpa using this
    obtain ⟨f0, e0⟩ := flattenFeatures_returns o1 h1.1.sizes h1.1.shape h1.1.valid h1.1.noEmpty V feats
      (by rw [h1.1.batch, hf]) hfV (fun b hb => h1.2 b (by rw [← h1.1.batch]; exact hb))
    have e0' : net40Init o1 feats = .ok f0 := by
      unfold net40Init
      rw [List.take_of_length_le hle, e0]
    obtain ⟨f1, e1⟩ := NetConv.call_returns E hdev heps hN.init hN.radius0.2 h1.1.valid h1.1.valid rfl h1.1.n h1.1.n f0
    obtain ⟨f2, e2⟩ := run_returns E hdev heps hN.block0.1 hN.radius0.2 h1.1.valid h1.1.valid rfl h1.1.n h1.1.n
      (pr := .vec []) (Or.inr ⟨hN.block0.2, rfl⟩) f1
    obtain ⟨x, e3⟩ := net40Loop_returns E hdev heps N.levels hN.levels os o1 f2 (fun p hp => (hos p hp).1)
      (by simpa [Net40.sizes] using hlen)
    rw [e0']
    dsimp only
    rw [e1]
    dsimp only
    rw [e2]
    dsimp only
    rw [e3]
    exact ⟨_, rfl⟩

theorem Net40.sizes_pos {N : Net40 (k + 2)} (hN : N.Ok) : ∀ r ∈ N.poolRadius0 :: N.levels.map Level40.poolRadius, 0 < r := by
  intro r hr
  rcases List.mem_cons.1 hr with rfl | hr
  · exact hN.radius0.1
  · obtain ⟨l, hl, rfl⟩ := List.mem_map.1 hr
    exact (hN.levels l hl).2.2.2.2.1

/-- **C111, Poisson disk sampling.** Every run of the network on the GPU returns logits,
and they are logits the TensorFlow model may return for the same input: the only freedom
is in the samples. -/
theorem C111_poisson_partial (hk : k ≤ 1) (E : NetEnv) (hdev : E.dev = .gpu) (heps : 0 < E.eps) (hdrop : DropLocal E)
    {Ws : ℕ} (hW : 0 < Ws) (N : Net40 (k + 2)) (hN : N.GpuOk E) (lower : String → String) (mode : String)
    (hm : lower mode ∈ ["poisson", "poisson disk", "poisson_disk"])
    {V : ℕ} {points : List (List (Fin (k + 2) → ℝ))} {sizes : List ℕ}
    (hP : PaddedOk V points sizes) (hne : ∀ s ∈ sizes, 0 < s) (hB : points ≠ []) (hone : sizes.sum ≤ 512 + Ws * 64)
    {feats : List (List (ℕ → ℝ))} (hf : feats.length = points.length) (hfV : ∀ row ∈ feats, row.length = V)
    (res : Except Err (List (ℕ → ℝ))) (h : N.GpuCall E Ws lower mode points.length V points feats sizes res) :
    ∃ rows, res = .ok rows ∧ N.Call E lower mode points.length V points feats sizes (.ok rows) := by
  obtain ⟨o, ho⟩ := newPadded_returns hP
  obtain ⟨p1, p2, p3, p4, p5, p6, p7⟩ := padded_input hP hne hB ho
  have hcall : N.Call E lower mode points.length V points feats sizes res := by
    unfold Net40.GpuCall at h
    unfold Net40.Call
    rw [ho] at h ⊢
    dsimp only at h ⊢
    obtain ⟨r, hr, h⟩ := h
    obtain ⟨os, H, rfl, hH, hcl⟩ := C110_poisson_hierarchy_partial hW heps hm o ⟨p1, p4, by rw [p5]; exact hone, p6⟩ _
      (Net40.sizes_pos hN.ok) r hr
    rw [← hdev] at hH
    obtain ⟨os', hcl', hlen, hos⟩ := hier_levelOk heps p1 p3 (by rw [p2]; exact List.length_pos_iff.2 hB) hH
      (net40_pos hN.ok hH)
    rw [hcl, List.cons.injEq] at hcl'
    obtain ⟨_, rfl⟩ := hcl'
    refine Or.inr ⟨H, hH, ?_⟩
    dsimp only at h
    rw [← hcl] at h
    refine C111_logits_partial hk E hdev heps hdrop hW N hN H o.c.B ?_ feats res h
    intro p hp
    rw [hcl, List.tail_cons] at hp
    obtain ⟨q1, q2⟩ := hos p hp
    exact ⟨⟨q1.valid, q1.n, (n_le_of_countIn p1 q1.valid q1.batch q2).trans (by rw [p5]; exact hone)⟩, q1.batch⟩
  cases res with
  | error e =>
    exact absurd hcall ((C97_returns E hdev heps N hN.ok lower mode
      (by simp only [List.mem_cons, List.not_mem_nil, or_false] at hm ⊢; tauto) hP hne hB hf hfV).2 e)
  | ok rows => exact ⟨rows, rfl, hcall⟩

/-- The levels of a run with cell averages, beside those of the TensorFlow model. -/
theorem gpuAverage_levels {eps : ℝ} (heps : 0 < eps) {Ws : ℕ} (hW : 0 < Ws) {lower : String → String} {mode : String}
    (hm : lower mode ∈ ["average", "cell average", "cell_average"]) {o : CloudObj (Fin (k + 2) → ℝ)}
    (ho : GpuStepOk Ws o.batchShape o.c) (hne : o.c.NoEmpty) (hB : 0 < o.c.B) {rs : List ℝ} (hrs : ∀ r ∈ rs, 0 < r)
    {r : Except Err (List (CloudObj (Fin (k + 2) → ℝ)))} (hr : GpuLevels Ws eps lower mode o.batchShape o (rs.map oneSize) r)
    {H : Hier k ℝ} (hH : HierNew .gpu eps lower mode o (rs.map oneSize) (.ok H)) :
    ∃ os os', r = .ok os ∧ H.clouds = o :: os' ∧ os.length = rs.length ∧
      (∀ q ∈ os, LevelOk o.c.B q ∧ (∀ b, q.c.countIn b ≤ o.c.countIn b) ∧ GpuCloud Ws q.c) ∧
      (∀ q ∈ os', q.c.Valid ∧ q.c.B = o.c.B) ∧
      List.Forall₂ (fun p q : CloudObj (Fin (k + 2) → ℝ) => SameCloud p.c q.c) os' os := by
  obtain ⟨os, rfl, hF⟩ := C110_average_hierarchy_partial hW heps hm o ho _ hrs r hr H hH
  have hpos : ∀ cs ∈ H.cellSizes, ∀ d, 0 < cs d := by
    intro cs hcs d
    rw [hier_sizes (rs := rs) hH, List.mem_map] at hcs
    obtain ⟨x, hx, rfl⟩ := hcs
    exact hrs x hx
  obtain ⟨os', hcl', hlen, hos⟩ := hier_levelOk heps ho.valid hne hB hH hpos
  have hobj := gpuLevels_objs hr
  rw [hcl', List.forall₂_cons] at hF
  have hF2 := hF.2
  refine ⟨os, os', rfl, hcl', by rw [← hF2.length_eq, hlen, List.length_map], ?_,
    fun q hq => ⟨(hos q hq).1.valid, (hos q hq).1.batch⟩, hF2.imp (fun p q h => h.1)⟩
  intro q hq
  obtain ⟨i, hi, rfl⟩ := List.mem_iff_getElem.1 hq
  have hi' : i < os'.length := by rw [hF2.length_eq]; exact hi
  obtain ⟨hsame, _⟩ := (List.forall₂_iff_get.1 hF2).2 i hi' hi
  obtain ⟨q1, q2⟩ := hos _ (List.getElem_mem hi')
  have hn := hsame.n
  have hc := hsame.countIn
  simp only [List.get_eq_getElem] at hn hc
  have hcount : ∀ b, os[i].c.countIn b ≤ o.c.countIn b := fun b => by rw [hc b]; exact q2 b
  have hv := hsame.valid q1.valid
  have hBB := hsame.1.trans q1.batch
  have hpos : 0 < os[i].c.n := by rw [hn]; exact q1.n
  exact ⟨⟨hv, hBB, hpos, (hobj _ hq).1, (hobj _ hq).2, hsame.noEmpty q1.noEmpty⟩, hcount, hv, hpos,
    (n_le_of_countIn ho.valid hv hBB hcount).trans ho.one⟩

/-- **C111, cell averages.** At inference with constant features, every run of the
network on the GPU returns the logits of the TensorFlow model. -/
theorem C111_average_partial (hk : k ≤ 1) (E : NetEnv) (hE : E.training = false) (hdev : E.dev = .gpu) (heps : 0 < E.eps)
    {Ws : ℕ} (hW : 0 < Ws) (N : Net40 (k + 2)) (hN : N.GpuOk E) (lower : String → String) (mode : String)
    (hm : lower mode ∈ ["average", "cell average", "cell_average"])
    {V : ℕ} {points : List (List (Fin (k + 2) → ℝ))} {sizes : List ℕ}
    (hP : PaddedOk V points sizes) (hne : ∀ s ∈ sizes, 0 < s) (hB : points ≠ []) (hone : sizes.sum ≤ 512 + Ws * 64)
    {feats : List (List (ℕ → ℝ))} (hf : feats.length = points.length) (hfV : ∀ row ∈ feats, row.length = V)
    (v : ℕ → ℝ) (hv : ∀ row ∈ feats, ∀ x ∈ row, x = v)
    (res : Except Err (List (ℕ → ℝ))) (h : N.GpuCall E Ws lower mode points.length V points feats sizes res)
    (rows : List (ℕ → ℝ)) (htf : N.Call E lower mode points.length V points feats sizes (.ok rows)) :
    res = .ok rows := by
  have hdrop : DropLocal E := fun ht => by rw [hE] at ht; cases ht
  obtain ⟨o, ho⟩ := newPadded_returns hP
  obtain ⟨p1, p2, p3, p4, p5, p6, p7⟩ := padded_input hP hne hB ho
  have hBpos : 0 < o.c.B := by rw [p2]; exact List.length_pos_iff.2 hB
  unfold Net40.GpuCall at h
  unfold Net40.Call at htf
  rw [ho] at h htf
  dsimp only at h htf
  obtain ⟨r, hr, h⟩ := h
  rcases htf with ⟨e, _, he⟩ | ⟨H, hH, htf⟩
  · cases he
  have hH' : HierNew .gpu E.eps lower mode o N.sizes (.ok H) := by rw [← hdev]; exact hH
  obtain ⟨os, os', rfl, hcl', hlen, hlv, hos, hF2⟩ := gpuAverage_levels heps hW hm ⟨p1, p4, by rw [p5]; exact hone, p6⟩ p3 hBpos
    (Net40.sizes_pos hN.ok) hr hH'
  dsimp only at h
  have hlog := C111_logits_partial hk E hdev heps hdrop hW N hN ⟨o :: os, [], [], none⟩ o.c.B (by
    intro p hp
    rw [List.tail_cons] at hp
    obtain ⟨q1, q2, q3⟩ := hlv p hp
    exact ⟨q3, q1.batch⟩) feats res h
  obtain ⟨rows', hrows'⟩ := Net40.logits_returns E hdev heps N hN.ok (H := ⟨o :: os, [], [], none⟩) rfl
    (by rw [hlen]; simp [Net40.sizes]) (B := o.c.B) (V := V)
    (fun p hp => ⟨(hlv p hp).1, fun b hb => ((hlv p hp).2.1 b).trans (p7 b hb)⟩) (by rw [hf, p2]) hfV
  rw [hlog, hrows']
  have c1 : ∀ p ∈ H.clouds, p.c.Valid ∧ p.c.B = o.c.B := by
    intro p hp
    rw [hcl'] at hp
    rcases List.mem_cons.1 hp with rfl | hp
    · exact ⟨p1, rfl⟩
    · exact hos p hp
  have c2 : ∀ p ∈ o :: os, p.c.Valid ∧ p.c.B = o.c.B := by
    intro p hp
    rcases List.mem_cons.1 hp with rfl | hp
    · exact ⟨p1, rfl⟩
    · exact ⟨(hlv p hp).1.valid, (hlv p hp).1.batch⟩
  obtain ⟨l1, key⟩ := C97_from_levels E hE heps N hN.ok (H' := ⟨o :: os, [], [], none⟩) c1 c2 v hv hv htf.symm hrows'
  obtain ⟨l2, _⟩ := C97_from_levels E hE heps N hN.ok (H := ⟨o :: os, [], [], none⟩) (H' := ⟨o :: os, [], [], none⟩)
    c2 c2 v hv hv hrows' hrows'
  congr 1
  apply List.ext_getElem?
  intro b
  by_cases hb : b < o.c.B
  · refine key b b hb hb ?_
    rw [hcl']
    exact .cons (SameCloud.refl _ |>.elem b) (hF2.imp (fun p q h => h.elem b))
  · rw [List.getElem?_eq_none (by omega), List.getElem?_eq_none (by omega)]

/-! ## the small network -/

/-- The layers of the small network read channels that the layers before them have
written. -/
def NetSmall.Fits {D : ℕ} (N : NetSmall D) : Prop :=
  (∀ l ∈ N.levels, l.conv.Writes l.lin.cin) ∧ N.last.Writes N.head.dense1.cin

/-- The convolutions of the small network fit the CUDA operations. -/
structure NetSmall.GpuOk (E : NetEnv) (N : NetSmall (k + 2)) : Prop where
  ok : N.Ok
  last : N.last.GpuOk E
  levels : ∀ l ∈ N.levels, l.conv.GpuOk E
  fits : N.Fits

theorem gpuNetSmallLoop_cons (E : NetEnv) (Ws : ℕ) (N : NetSmall (k + 2)) (o o' : CloudObj (Fin (k + 2) → ℝ))
    (f : Fin o.c.n → ℕ → ℝ) (os : List (CloudObj (Fin (k + 2) → ℝ))) (l : LevelSmall (k + 2)) (ls : List (LevelSmall (k + 2)))
    (res : Except Err ((n : ℕ) × (Fin n → ℕ → ℝ))) :
    gpuNetSmallLoop E Ws N o f (o' :: os) (l :: ls) res ↔ ∃ r, l.conv.GpuCall E Ws o.c o'.c l.convRadius f r ∧
      match r with
      | .error e => res = .error e
      | .ok g => gpuNetSmallLoop E Ws N o' (E.bnAct l.bn2 (l.lin.apply (E.bnAct l.bn1 g))) os ls res := by
  cases os <;> rfl

theorem gpuNetSmallLoop_spec (hk : k ≤ 1) (E : NetEnv) (hdev : E.dev = .gpu) (heps : 0 < E.eps) {Ws : ℕ} (hW : 0 < Ws)
    {B : ℕ} (N : NetSmall (k + 2)) (hlast : N.last.GpuOk E ∧ 0 < N.lastConvRadius) {wout : ℕ} (hw : N.last.Writes wout)
    (levels : List (LevelSmall (k + 2)))
    (hl : ∀ l ∈ levels, l.conv.GpuOk E ∧ 0 < l.convRadius ∧ l.conv.Writes l.lin.cin) :
    ∀ (os : List (CloudObj (Fin (k + 2) → ℝ))) (o : CloudObj (Fin (k + 2) → ℝ)) (f : Fin o.c.n → ℕ → ℝ),
    (∀ p ∈ o :: os, GpuCloud Ws p.c ∧ p.c.B = B) →
    ∀ res, gpuNetSmallLoop E Ws N o f os levels res →
    (∃ e, res = .error e ∧ netSmallLoop E N o f os levels = .error e) ∨
    ∃ n, ∃ g g' : Fin n → ℕ → ℝ, res = .ok ⟨n, g⟩ ∧ netSmallLoop E N o f os levels = .ok ⟨n, g'⟩ ∧ EqTo wout g g' := by
  induction levels with
  | nil =>
    intro os o f ho res h
    match os, ho, h with
    | [], _, h => exact Or.inl ⟨_, h, rfl⟩
    | [q], ho, h =>
      obtain ⟨r, h1, h⟩ := h
      have a := ho o (by simp)
      have b := ho q (by simp)
      obtain ⟨g, g', rfl, hg', hgg⟩ := NetConv.gpuCall_spec hk E hdev heps hW hlast.1 a.1 b.1 (b.2.trans a.2.symm) hlast.2 f h1
      dsimp only at h
      refine Or.inr ⟨_, _, _, h, ?_, fun i ch hch => hgg _ hw _ ch hch⟩
      unfold netSmallLoop
      rw [hg']
      rfl
    | _ :: _ :: _, _, h => exact Or.inl ⟨_, h, rfl⟩
  | cons l ls ih =>
    intro os o f ho res h
    cases os with
    | nil => exact Or.inl ⟨_, h, rfl⟩
    | cons q os =>
      rw [gpuNetSmallLoop_cons] at h
      rw [netSmallLoop_cons]
      obtain ⟨r, h1, h⟩ := h
      obtain ⟨l1, l2, l3⟩ := hl l (by simp)
      have a := ho o (by simp)
      have b := ho q (by simp)
      obtain ⟨g, g', rfl, hg', hgg⟩ := NetConv.gpuCall_spec hk E hdev heps hW l1 a.1 b.1 (b.2.trans a.2.symm) l2 f h1
      dsimp only at h
      rw [hg']
      dsimp only
      rw [((hgg _ l3).bnAct E l.bn1).lin l.lin le_rfl] at h
      exact ih (fun l hx => hl l (by simp [hx])) os q _ (fun p hp => ho p (by simp at hp ⊢; tauto)) res h

/-- **C111, the small network on given levels.** -/
theorem C111_small_logits_partial (hk : k ≤ 1) (E : NetEnv) (hdev : E.dev = .gpu) (heps : 0 < E.eps) (hdrop : DropLocal E)
    {Ws : ℕ} (hW : 0 < Ws) (N : NetSmall (k + 2)) (hN : N.GpuOk E) (H : Hier k ℝ) (B : ℕ)
    (hcl : ∀ p ∈ H.clouds, GpuCloud Ws p.c ∧ p.c.B = B) (feats : List (List (ℕ → ℝ)))
    (res : Except Err (List (ℕ → ℝ))) (h : N.GpuLogits E Ws H.clouds feats res) : res = N.logits E H feats := by
  unfold NetSmall.GpuLogits at h
  unfold NetSmall.logits
  split at h
  swap
  · rename_i hcl'
    split
    · rename_i x0 os heq
      exact absurd heq (hcl' x0 os)
    · exact h
  rename_i o os heq
  rw [heq] at hcl ⊢
  dsimp only
  split at h
  · rename_i e he
    rw [he]
    exact h
  rename_i f0 he
  rw [he]
  dsimp only
  obtain ⟨r, h1, h⟩ := h
  rcases gpuNetSmallLoop_spec hk E hdev heps hW N ⟨hN.last, hN.ok.last.2.2⟩ hN.fits.2 N.levels
    (fun l hl => ⟨hN.levels l hl, (hN.ok.levels l hl).2.2, hN.fits.1 l hl⟩) os o f0 hcl r h1 with
    ⟨e, rfl, he⟩ | ⟨n, g, g', rfl, he, hgg⟩
  · rw [he]
    exact h
  · rw [he]
    dsimp only at h ⊢
    rw [h]
    congr 2
    unfold NetHead.runSmall
    rw [((hgg.bnAct E N.head.bn1).dropout1 hdrop).lin N.head.dense1 le_rfl]

theorem NetSmall.sizes_pos {N : NetSmall (k + 2)} (hN : N.Ok) :
    ∀ r ∈ N.levels.map LevelSmall.sampleRadius ++ [N.lastSampleRadius], 0 < r := by
  intro r hr
  rcases List.mem_append.1 hr with hr | hr
  · obtain ⟨l, hl, rfl⟩ := List.mem_map.1 hr
    exact (hN.levels l hl).2.1
  · rw [List.mem_singleton] at hr
    rw [hr]
    exact hN.last.2.1

/-- **C111, the small network with Poisson disk sampling.** -/
theorem C111_small_poisson_partial (hk : k ≤ 1) (E : NetEnv) (hdev : E.dev = .gpu) (heps : 0 < E.eps) (hdrop : DropLocal E)
    {Ws : ℕ} (hW : 0 < Ws) (N : NetSmall (k + 2)) (hN : N.GpuOk E) (lower : String → String) (mode : String)
    (hm : lower mode ∈ ["poisson", "poisson disk", "poisson_disk"])
    {V : ℕ} {points : List (List (Fin (k + 2) → ℝ))} {sizes : List ℕ}
    (hP : PaddedOk V points sizes) (hne : ∀ s ∈ sizes, 0 < s) (hB : points ≠ []) (hone : sizes.sum ≤ 512 + Ws * 64)
    {feats : List (List (ℕ → ℝ))} (hf : feats.length = points.length) (hfV : ∀ row ∈ feats, row.length = V)
    (res : Except Err (List (ℕ → ℝ))) (h : N.GpuCall E Ws lower mode points.length V points feats sizes res) :
    ∃ rows, res = .ok rows ∧ N.Call E lower mode points.length V points feats sizes (.ok rows) := by
  obtain ⟨o, ho⟩ := newPadded_returns hP
  obtain ⟨p1, p2, p3, p4, p5, p6, p7⟩ := padded_input hP hne hB ho
  have hcall : N.Call E lower mode points.length V points feats sizes res := by
    unfold NetSmall.GpuCall at h
    unfold NetSmall.Call
    rw [ho] at h ⊢
    dsimp only at h ⊢
    obtain ⟨r, hr, h⟩ := h
    obtain ⟨os, H, rfl, hH, hcl⟩ := C110_poisson_hierarchy_partial hW heps hm o ⟨p1, p4, by rw [p5]; exact hone, p6⟩ _
      (NetSmall.sizes_pos hN.ok) r hr
    rw [← hdev] at hH
    obtain ⟨os', hcl', hlen, hos⟩ := hier_levelOk heps p1 p3 (by rw [p2]; exact List.length_pos_iff.2 hB) hH
      (netSmall_pos hN.ok hH)
    rw [hcl, List.cons.injEq] at hcl'
    obtain ⟨_, rfl⟩ := hcl'
    refine Or.inr ⟨H, hH, ?_⟩
    dsimp only at h
    rw [← hcl] at h
    refine C111_small_logits_partial hk E hdev heps hdrop hW N hN H o.c.B ?_ feats res h
    intro p hp
    rw [hcl] at hp
    rcases List.mem_cons.1 hp with rfl | hp
    · exact ⟨⟨p1, p4, by rw [p5]; exact hone⟩, rfl⟩
    · obtain ⟨q1, q2⟩ := hos p hp
      exact ⟨⟨q1.valid, q1.n, (n_le_of_countIn p1 q1.valid q1.batch q2).trans (by rw [p5]; exact hone)⟩, q1.batch⟩
  cases res with
  | error e =>
    exact absurd hcall ((C98_returns E hdev heps N hN.ok lower mode
      (by simp only [List.mem_cons, List.not_mem_nil, or_false] at hm ⊢; tauto) hP hne hB hf hfV).2 e)
  | ok rows => exact ⟨rows, rfl, hcall⟩

/-- **C111, the small network with cell averages**: at inference, for shapes small
against the last cell size, every run on the GPU returns the logits of the TensorFlow
model, for any features. -/
theorem C111_small_average_partial (hk : k ≤ 1) (E : NetEnv) (hE : E.training = false) (hdev : E.dev = .gpu) (heps : 0 < E.eps)
    {Ws : ℕ} (hW : 0 < Ws) (N : NetSmall (k + 2)) (hN : N.GpuOk E) (lower : String → String) (mode : String)
    (hm : lower mode ∈ ["average", "cell average", "cell_average"])
    {V : ℕ} {points : List (List (Fin (k + 2) → ℝ))} {sizes : List ℕ}
    (hP : PaddedOk V points sizes) (hne : ∀ s ∈ sizes, 0 < s) (hB : points ≠ []) (hone : sizes.sum ≤ 512 + Ws * 64)
    (hsm : ShapesSmall E.eps N.lastSampleRadius lower mode (List.zipWith (fun l s => l.take s) points sizes))
    {feats : List (List (ℕ → ℝ))}
    (res : Except Err (List (ℕ → ℝ))) (h : N.GpuCall E Ws lower mode points.length V points feats sizes res)
    (rows : List (ℕ → ℝ)) (htf : N.Call E lower mode points.length V points feats sizes (.ok rows)) :
    res = .ok rows := by
  have hdrop : DropLocal E := fun ht => by rw [hE] at ht; cases ht
  obtain ⟨o, ho⟩ := newPadded_returns hP
  obtain ⟨p1, p2, p3, p4, p5, p6, p7⟩ := padded_input hP hne hB ho
  have hBpos : 0 < o.c.B := by rw [p2]; exact List.length_pos_iff.2 hB
  unfold NetSmall.GpuCall at h
  unfold NetSmall.Call at htf
  rw [ho] at h htf
  dsimp only at h htf
  obtain ⟨r, hr, h⟩ := h
  rcases htf with ⟨e, _, he⟩ | ⟨H, hH, htf⟩
  · cases he
  have hH' : HierNew .gpu E.eps lower mode o N.sizes (.ok H) := by rw [← hdev]; exact hH
  have hg : GpuStepOk Ws o.batchShape o.c := ⟨p1, p4, by rw [p5]; exact hone, p6⟩
  obtain ⟨os, os', rfl, hcl', hlen, hlv, hos, hF2⟩ := gpuAverage_levels heps hW hm hg p3 hBpos
    (NetSmall.sizes_pos hN.ok) hr hH'
  dsimp only at h
  have hcl2 : ∀ p ∈ o :: os, GpuCloud Ws p.c ∧ p.c.B = o.c.B := by
    intro p hp
    rcases List.mem_cons.1 hp with rfl | hp
    · exact ⟨⟨p1, p4, hg.one⟩, rfl⟩
    · obtain ⟨q1, q2, q3⟩ := hlv p hp
      exact ⟨q3, q1.batch⟩
  have hlog := C111_small_logits_partial hk E hdev heps hdrop hW N hN ⟨o :: os, [], [], none⟩ o.c.B hcl2 feats res h
  -- the features of the input and the last level
  obtain ⟨f0, e0⟩ : ∃ f0, (o.flattenFeatures feats).1 = .ok f0 := by
    unfold NetSmall.logits at htf
    rw [hcl'] at htf
    dsimp only at htf
    split at htf
    · cases htf
    · rename_i f0 e0
      exact ⟨f0, e0⟩
  obtain ⟨p, hp, hone1⟩ := hier_one heps p1 p3 (by
    intro x hx
    obtain ⟨l, hl, rfl⟩ := List.mem_map.1 hx
    exact (hN.ok.levels l hl).2.1) hN.ok.last.2.1 hH (smallShapes_of hP ho hsm)
  obtain ⟨rows', hrows'⟩ : ∃ rows', N.logits E ⟨o :: os, [], [], none⟩ feats = .ok rows' := by
    obtain ⟨x, e1⟩ := netSmallLoop_returns E hdev heps N hN.ok.last N.levels hN.ok.levels (B := o.c.B) os o f0 (by
      intro p hp
      have := hcl2 p hp
      exact ⟨this.1.valid, this.2, this.1.pos⟩) (by rw [hlen]; simp)
    unfold NetSmall.logits
    dsimp only
    rw [e0]
    dsimp only
    rw [e1]
    exact ⟨_, rfl⟩
  rw [hlog, hrows']
  have hFF : List.Forall₂ (fun p q : CloudObj (Fin (k + 2) → ℝ) => SameCloud p.c q.c) H.clouds (o :: os) := by
    rw [hcl']
    exact .cons (SameCloud.refl _) hF2
  have hlastq : ∃ q, (o :: os).getLast? = some q ∧ OnePerElement q.c := by
    rw [hcl'] at hp hFF
    have hl := hFF.length_eq
    rw [List.getLast?_eq_getElem?] at hp ⊢
    obtain ⟨hi, hpe⟩ := List.getElem?_eq_some_iff.1 hp
    have hi' : (o :: os).length - 1 < (o :: os).length := by simp
    refine ⟨_, List.getElem?_eq_getElem hi', ?_⟩
    have hs := (List.forall₂_iff_get.1 hFF).2 ((o :: os').length - 1) hi (by rw [← hl]; exact hi)
    simp only [List.get_eq_getElem] at hs
    have hs' : SameCloud p.c ((o :: os)[(o :: os).length - 1]).c := by
      rw [← hpe]
      simp only [← hl]
      exact hs
    intro b hb
    rw [hs'.countIn]
    exact hone1 b (by rw [← hs'.1]; exact hb)
  obtain ⟨q, hq, hone2⟩ := hlastq
  have c1 : ∀ p ∈ H.clouds, p.c.Valid ∧ p.c.B = o.c.B := by
    intro p hp
    rw [hcl'] at hp
    rcases List.mem_cons.1 hp with rfl | hp
    · exact ⟨p1, rfl⟩
    · exact hos p hp
  have c2 : ∀ p ∈ o :: os, p.c.Valid ∧ p.c.B = o.c.B := fun p hp => ⟨(hcl2 p hp).1.valid, (hcl2 p hp).2⟩
  obtain ⟨l1, key⟩ := C98_from_levels E hE heps N hN.ok (H' := ⟨o :: os, [], [], none⟩) c1 c2 hp hq hone1 hone2
    (by rw [hcl']; rfl) rfl e0 e0 htf.symm hrows'
  obtain ⟨l2, _⟩ := C98_from_levels E hE heps N hN.ok (H := ⟨o :: os, [], [], none⟩) (H' := ⟨o :: os, [], [], none⟩)
    c2 c2 hq hq hone2 hone2 rfl rfl e0 e0 hrows' hrows'
  congr 1
  apply List.ext_getElem?
  intro b
  by_cases hb : b < o.c.B
  · refine key b b hb hb ?_ (hFF.imp (fun p q h => h.elem b))
    refine ⟨⟨Equiv.refl _, fun _ => rfl⟩, fun _ => rfl⟩
  · rw [List.getElem?_eq_none (by omega), List.getElem?_eq_none (by omega)]

/-! ## runs exist -/

theorem gpuLevels_ok {Ws : ℕ} (hW : 0 < Ws) {eps : ℝ} (heps : 0 < eps) {lower : String → String}
    {mode : String} (hm : lower mode ∈ modeNames) {bs : Option (List ℕ)} (rs : List ℝ) (hrs : ∀ r ∈ rs, 0 < r) :
    ∀ (o : CloudObj (Fin (k + 2) → ℝ)) (res : Except Err (List (CloudObj (Fin (k + 2) → ℝ)))), GpuStepOk Ws bs o.c →
      GpuLevels Ws eps lower mode bs o (rs.map oneSize) res → ∃ os, res = .ok os ∧ ∀ p ∈ os, GpuStepOk Ws bs p.c := by
  induction rs with
  | nil =>
    intro o res _ h
    cases h
    exact ⟨[], rfl, by simp⟩
  | cons r rs ih =>
    intro o res ho h
    have hr : 0 < r := hrs r (by simp)
    rw [List.map_cons] at h
    have hstep : ∀ res, GpuLevelStep Ws eps lower mode bs o (oneSize r) res → ∃ o', res = .ok o' ∧ GpuStepOk Ws bs o'.c := by
      intro res h
      obtain ⟨o', q, nh', h1, h2, h4, h5, _⟩ := gpuLevelStep_spec hW heps hr hm ho h
      exact ⟨o', h1, ho.next (h5.coarsens (levelStep_spec heps ho.valid h2 (fun _ => hr)).1)⟩
    cases h with
    | fail _ _ _ e hf =>
      obtain ⟨_, he, _⟩ := hstep _ hf
      cases he
    | failLater _ _ _ o' e hst hl =>
      obtain ⟨_, he, ho'⟩ := hstep _ hst
      cases he
      obtain ⟨_, he, _⟩ := ih (fun r hr => hrs r (by simp [hr])) o' _ ho' hl
      cases he
    | cons _ _ _ o' rest' hst hl =>
      obtain ⟨_, he, ho'⟩ := hstep _ hst
      cases he
      obtain ⟨os, he, hF⟩ := ih (fun r hr => hrs r (by simp [hr])) o' _ ho' hl
      cases he
      refine ⟨_, rfl, ?_⟩
      intro p hp
      rcases List.mem_cons.1 hp with rfl | hp
      · exact ho'
      · exact hF p hp

theorem NetConv.gpu_runs (E : NetEnv) {Ws : ℕ} (hW : 0 < Ws) (L : NetConv (k + 2)) {cin cout : Cloud (Fin (k + 2) → ℝ)}
    (hin : GpuCloud Ws cin) (hout : GpuCloud Ws cout) {radius : ℝ} (hr : 0 < radius) (f : Fin cin.n → ℕ → ℝ) :
    ∃ res, L.GpuCall E Ws cin cout radius f res := by
  cases L with
  | mc L =>
    obtain ⟨out, h⟩ := C108_mcconv_runs E.act Ws E.eps L cin cout radius (1 / 5) hr hW hin.pos hout.pos hin.one hout.one f
    exact ⟨_, out, h, rfl⟩
  | pc L =>
    obtain ⟨out, h⟩ := C108_pointconv_runs E.act Ws E.eps L cin cout radius (1 / 5) hr hW hin.pos hout.pos hin.one hout.one f
    exact ⟨_, out, h, rfl⟩
  | kp L =>
    obtain ⟨r, h⟩ := C108_kpconv_runs Ws E.eps L cin cout radius none hr hW hout.pos hout.one f
    exact ⟨_, r, h, rfl⟩

theorem NetBlock.gpu_runs (E : NetEnv) {Ws : ℕ} (hW : 0 < Ws) (b : NetBlock (k + 2)) {cin cout : Cloud (Fin (k + 2) → ℝ)}
    (hin : GpuCloud Ws cin) (hout : GpuCloud Ws cout) {radius pr : ℝ} (hr : 0 < radius) (hp : b.strided = true → 0 < pr)
    (f : Fin cin.n → ℕ → ℝ) : ∃ res, b.GpuRun E Ws cin cout radius pr f res := by
  obtain ⟨r, h1⟩ := NetConv.gpu_runs E hW b.conv hin hout hr (E.bnAct b.bn1 (b.down.apply (E.bnAct b.bn0 f)))
  cases r with
  | error e => exact ⟨_, _, h1, rfl⟩
  | ok r =>
    have h2 : ∃ s, b.GpuPool E Ws cin cout pr f s := by
      by_cases hs : b.strided = true
      · obtain ⟨nb, hnb⟩ := gpuFind_exists Ws (⟨cin, fun _ => pr, E.eps⟩ : Grid (k + 2) ℝ) cout (fun _ => pr)
          (fun _ => hp hs) (fun _ => le_rfl) hW hout.pos hout.one
        refine ⟨.ok (fun i ch => ((fun c ch => let ids := gpuIds (⟨cin, fun _ => pr, E.eps⟩ : Grid (k + 2) ℝ) nb
          PoolOp.max.apply (fun j : Fin ids.length => f (ids.get j).1 ch) (fun j => (ids.get j).2.val) c.val :
          Fin cout.n → ℕ → Option ℝ) i ch).getD E.lowest), ?_⟩
        unfold NetBlock.GpuPool
        rw [if_pos hs]
        exact ⟨_, ⟨nb, hnb, rfl⟩, rfl⟩
      · refine ⟨if h : cout.n = cin.n then .ok (fun i => f (Fin.cast h i)) else .error .invalidArgument, ?_⟩
        unfold NetBlock.GpuPool
        rw [if_neg hs]
    obtain ⟨s, h2⟩ := h2
    cases s with
    | error e => exact ⟨.error e, _, h1, _, h2, rfl⟩
    | ok s => exact ⟨.ok _, _, h1, _, h2, rfl⟩

theorem gpuNet40Loop_runs (E : NetEnv) {Ws : ℕ} (hW : 0 < Ws) (levels : List (Level40 (k + 2)))
    (hl : ∀ l ∈ levels, 0 < l.poolRadius ∧ 0 < l.convRadius ∧ l.block.strided = false) :
    ∀ (os : List (CloudObj (Fin (k + 2) → ℝ))) (o : CloudObj (Fin (k + 2) → ℝ)) (f : Fin o.c.n → ℕ → ℝ),
    (∀ p ∈ o :: os, GpuCloud Ws p.c) → ∃ res, gpuNet40Loop E Ws o f os levels res := by
  induction levels with
  | nil => intro os o f ho; cases os <;> exact ⟨_, rfl⟩
  | cons l ls ih =>
    intro os o f ho
    cases os with
    | nil => exact ⟨_, rfl⟩
    | cons q os =>
      obtain ⟨l1, l2, l3⟩ := hl l (by simp)
      have a := ho o (by simp)
      have b := ho q (by simp)
      obtain ⟨r1, h1⟩ := l.strided.gpu_runs E hW a b l1 (fun _ => l1) f
      cases r1 with
      | error e => exact ⟨_, _, h1, rfl⟩
      | ok f1 =>
        obtain ⟨r2, h2⟩ := l.block.gpu_runs E hW b b l2 (pr := 0) (fun h => by rw [l3] at h; cases h) f1
        cases r2 with
        | error e => exact ⟨_, _, h1, _, h2, rfl⟩
        | ok f2 =>
          obtain ⟨res, h⟩ := ih (fun l hx => hl l (by simp [hx])) os q f2 (fun p hp => ho p (by simp at hp ⊢; tauto))
          exact ⟨res, _, h1, _, h2, h⟩

/-- **C111, runs exist**: the network has a run on the GPU for every padded batch that
fits it. -/
theorem C111_runs (E : NetEnv) (heps : 0 < E.eps) {Ws : ℕ} (hW : 0 < Ws) (N : Net40 (k + 2)) (hN : N.Ok)
    (lower : String → String) (mode : String) (hm : lower mode ∈ modeNames)
    {V : ℕ} {points : List (List (Fin (k + 2) → ℝ))} {sizes : List ℕ}
    (hP : PaddedOk V points sizes) (hne : ∀ s ∈ sizes, 0 < s) (hB : points ≠ []) (hone : sizes.sum ≤ 512 + Ws * 64)
    (feats : List (List (ℕ → ℝ))) : ∃ res, N.GpuCall E Ws lower mode points.length V points feats sizes res := by
  obtain ⟨o, ho⟩ := newPadded_returns hP
  obtain ⟨p1, p2, p3, p4, p5, p6, p7⟩ := padded_input hP hne hB ho
  have hg : GpuStepOk Ws o.batchShape o.c := ⟨p1, p4, by rw [p5]; exact hone, p6⟩
  obtain ⟨r, hr⟩ := C110_runs hW heps hm _ (Net40.sizes_pos hN) o.batchShape o hg
  obtain ⟨os, rfl, hos⟩ := gpuLevels_ok hW heps hm _ (Net40.sizes_pos hN) o r hg hr
  have hlog : ∃ res, N.GpuLogits E Ws (o :: os) feats res := by
    unfold Net40.GpuLogits
    cases os with
    | nil => exact ⟨_, rfl⟩
    | cons o1 os =>
      have hcl : ∀ p ∈ o1 :: os, GpuCloud Ws p.c := fun p hp => ⟨(hos p hp).valid, (hos p hp).pos, (hos p hp).one⟩
      dsimp only
      cases net40Init o1 feats with
      | error e => exact ⟨_, rfl⟩
      | ok f0 =>
        dsimp only
        obtain ⟨r1, h1⟩ := NetConv.gpu_runs E hW N.init (hcl o1 (by simp)) (hcl o1 (by simp)) hN.radius0.2 f0
        cases r1 with
        | error e => exact ⟨_, _, h1, rfl⟩
        | ok f1 =>
          obtain ⟨r2, h2⟩ := N.block0.gpu_runs E hW (hcl o1 (by simp)) (hcl o1 (by simp)) hN.radius0.2 (pr := 0)
            (fun h => by rw [hN.block0.2] at h; cases h) f1
          cases r2 with
          | error e => exact ⟨_, _, h1, _, h2, rfl⟩
          | ok f2 =>
            obtain ⟨r3, h3⟩ := gpuNet40Loop_runs E hW N.levels
              (fun l hl => ⟨(hN.levels l hl).2.2.2.2.1, (hN.levels l hl).2.2.2.2.2, (hN.levels l hl).2.2.2.1⟩) os o1 f2 hcl
            cases r3 with
            | error e => exact ⟨_, _, h1, _, h2, _, h3, rfl⟩
            | ok x => exact ⟨_, _, h1, _, h2, _, h3, rfl⟩
  obtain ⟨res, hres⟩ := hlog
  refine ⟨res, ?_⟩
  unfold Net40.GpuCall
  rw [ho]
  exact ⟨_, hr, hres⟩

theorem gpuNetSmallLoop_runs (E : NetEnv) {Ws : ℕ} (hW : 0 < Ws) (N : NetSmall (k + 2)) (hlast : 0 < N.lastConvRadius)
    (levels : List (LevelSmall (k + 2))) (hl : ∀ l ∈ levels, 0 < l.convRadius) :
    ∀ (os : List (CloudObj (Fin (k + 2) → ℝ))) (o : CloudObj (Fin (k + 2) → ℝ)) (f : Fin o.c.n → ℕ → ℝ),
    (∀ p ∈ o :: os, GpuCloud Ws p.c) → ∃ res, gpuNetSmallLoop E Ws N o f os levels res := by
  induction levels with
  | nil =>
    intro os o f ho
    match os, ho with
    | [], _ => exact ⟨_, rfl⟩
    | [q], ho =>
      obtain ⟨r, h⟩ := NetConv.gpu_runs E hW N.last (ho o (by simp)) (ho q (by simp)) hlast f
      cases r with
      | error e => exact ⟨_, _, h, rfl⟩
      | ok g => exact ⟨_, _, h, rfl⟩
    | _ :: _ :: _, _ => exact ⟨_, rfl⟩
  | cons l ls ih =>
    intro os o f ho
    cases os with
    | nil => exact ⟨_, rfl⟩
    | cons q os =>
      obtain ⟨r, h⟩ := NetConv.gpu_runs E hW l.conv (ho o (by simp)) (ho q (by simp)) (hl l (by simp)) f
      cases r with
      | error e => exact ⟨_, (gpuNetSmallLoop_cons ..).mpr ⟨_, h, rfl⟩⟩
      | ok g =>
        obtain ⟨res, h'⟩ := ih (fun l hx => hl l (by simp [hx])) os q (E.bnAct l.bn2 (l.lin.apply (E.bnAct l.bn1 g)))
          (fun p hp => ho p (by simp at hp ⊢; tauto))
        exact ⟨res, (gpuNetSmallLoop_cons ..).mpr ⟨_, h, h'⟩⟩

/-- **C111, runs exist**, for the small network. -/
theorem C111_small_runs (E : NetEnv) (heps : 0 < E.eps) {Ws : ℕ} (hW : 0 < Ws) (N : NetSmall (k + 2)) (hN : N.Ok)
    (lower : String → String) (mode : String) (hm : lower mode ∈ modeNames)
    {V : ℕ} {points : List (List (Fin (k + 2) → ℝ))} {sizes : List ℕ}
    (hP : PaddedOk V points sizes) (hne : ∀ s ∈ sizes, 0 < s) (hB : points ≠ []) (hone : sizes.sum ≤ 512 + Ws * 64)
    (feats : List (List (ℕ → ℝ))) : ∃ res, N.GpuCall E Ws lower mode points.length V points feats sizes res := by
  obtain ⟨o, ho⟩ := newPadded_returns hP
  obtain ⟨p1, p2, p3, p4, p5, p6, p7⟩ := padded_input hP hne hB ho
  have hg : GpuStepOk Ws o.batchShape o.c := ⟨p1, p4, by rw [p5]; exact hone, p6⟩
  obtain ⟨r, hr⟩ := C110_runs hW heps hm _ (NetSmall.sizes_pos hN) o.batchShape o hg
  obtain ⟨os, rfl, hos⟩ := gpuLevels_ok hW heps hm _ (NetSmall.sizes_pos hN) o r hg hr
  have hlog : ∃ res, N.GpuLogits E Ws (o :: os) feats res := by
    unfold NetSmall.GpuLogits
    have hcl : ∀ p ∈ o :: os, GpuCloud Ws p.c := by
      intro p hp
      rcases List.mem_cons.1 hp with rfl | hp
      · exact ⟨hg.valid, hg.pos, hg.one⟩
      · exact ⟨(hos p hp).valid, (hos p hp).pos, (hos p hp).one⟩
    dsimp only
    cases (o.flattenFeatures feats).1 with
    | error e => exact ⟨_, rfl⟩
    | ok f0 =>
      dsimp only
      obtain ⟨r, h⟩ := gpuNetSmallLoop_runs E hW N hN.last.2.2 N.levels (fun l hl => (hN.levels l hl).2.2) os o f0 hcl
      cases r with
      | error e => exact ⟨_, _, h, rfl⟩
      | ok x => exact ⟨_, _, h, rfl⟩
  obtain ⟨res, hres⟩ := hlog
  refine ⟨res, ?_⟩
  unfold NetSmall.GpuCall
  rw [ho]
  exact ⟨_, hr, hres⟩

/-- **C111, logits of a shape.** At inference with cell averages and constant features,
the logits a run on the GPU returns for a shape are the same in every run, for every
batch around it, every position in the batch, every padding and every order of its
points. -/
theorem C111_logits_of_a_shape_partial (hk : k ≤ 1) (E : NetEnv) (hE : E.training = false) (hdev : E.dev = .gpu) (heps : 0 < E.eps)
    {Ws : ℕ} (hW : 0 < Ws) (N : Net40 (k + 2)) (hN : N.GpuOk E) (lower : String → String) (mode : String)
    (hm : lower mode ∈ ["average", "cell average", "cell_average"])
    {V V' : ℕ} {points points' : List (List (Fin (k + 2) → ℝ))} {sizes sizes' : List ℕ}
    (hP : PaddedOk V points sizes) (hne : ∀ s ∈ sizes, 0 < s) (hB : points ≠ []) (hone : sizes.sum ≤ 512 + Ws * 64)
    (hP' : PaddedOk V' points' sizes') (hne' : ∀ s ∈ sizes', 0 < s) (hB' : points' ≠ []) (hone' : sizes'.sum ≤ 512 + Ws * 64)
    {feats feats' : List (List (ℕ → ℝ))} (hf : feats.length = points.length) (hfV : ∀ row ∈ feats, row.length = V)
    (hf' : feats'.length = points'.length) (hfV' : ∀ row ∈ feats', row.length = V')
    (v : ℕ → ℝ) (hv : ∀ row ∈ feats, ∀ x ∈ row, x = v) (hv' : ∀ row ∈ feats', ∀ x ∈ row, x = v)
    (res res' : Except Err (List (ℕ → ℝ))) (h : N.GpuCall E Ws lower mode points.length V points feats sizes res)
    (h' : N.GpuCall E Ws lower mode points'.length V' points' feats' sizes' res') :
    ∃ rows rows', res = .ok rows ∧ res' = .ok rows' ∧ rows.length = points.length ∧ ∀ b b', b < points.length →
      b' < points'.length →
      ((points.getD b []).take (sizes.getD b 0)).Perm ((points'.getD b' []).take (sizes'.getD b' 0)) →
      rows'[b']? = rows[b]? := by
  have hm' : lower mode ∈ ["poisson", "poisson disk", "poisson_disk", "average", "cell average", "cell_average"] := by
    simp only [List.mem_cons, List.not_mem_nil, or_false] at hm ⊢; tauto
  obtain ⟨rows, ht⟩ := (C97_returns E hdev heps N hN.ok lower mode hm' hP hne hB hf hfV).1
  obtain ⟨rows', ht'⟩ := (C97_returns E hdev heps N hN.ok lower mode hm' hP' hne' hB' hf' hfV').1
  have e := C111_average_partial hk E hE hdev heps hW N hN lower mode hm hP hne hB hone hf hfV v hv res h rows ht
  have e' := C111_average_partial hk E hE hdev heps hW N hN lower mode hm hP' hne' hB' hone' hf' hfV' v hv' res' h' rows' ht'
  have key := C97_logits_of_a_shape E hE heps N hN.ok lower mode hm hP hP' v hv hv' ht ht'
  exact ⟨rows, rows', e, e', key.1, key.2⟩

/-! ## formulas -/

/-- **C97, convolutions of the networks**: a convolution in a network has bandwidth 1/5
(Monte Carlo, PointConv) or influence distance equal to the radius (kernel points), and
returns the values of the published formulas. -/
theorem C97_conv_formula (E : NetEnv) (heps : 0 < E.eps) (L : NetConv (k + 2)) (hL : L.Ok) (cin cout : Cloud (Fin (k + 2) → ℝ))
    (hv : cin.Valid) {radius : ℝ} (hr : 0 < radius) (f : Fin cin.n → ℕ → ℝ) (g : Fin cout.n → ℕ → ℝ)
    (h : L.call E cin cout radius f = .ok g) (c : Fin cout.n) (o : ℕ) :
    g c o = match L with
      | .mc L => mcSpec E.ker E.act L cin cout radius (1 / 5) f c o
      | .pc L => pcSpec E.ker E.act L cin cout radius (1 / 5) f c o
      | .kp L => kpSpec L 1 cin cout radius f c o := by
  have ok : LayerOk cin cout radius E.eps := ⟨hv, hr, heps⟩
  cases L with
  | mc L => exact C41_mcconv_formula E.ker E.act E.dev E.eps L cin cout radius (1 / 5) ok f g h c o
  | pc L => exact C41_pointconv_formula E.ker E.act E.dev E.eps L cin cout radius (1 / 5) ok f g h c o
  | kp L =>
    unfold NetConv.call at h
    dsimp only at h
    split at h
    · cases h
    rename_i n out htf
    obtain ⟨nh, hnh⟩ := kp_call_nbh htf
    obtain ⟨out', h1, h2⟩ := C41_kpconv_formula E.dev E.eps L cin cout radius ok none hL.1 hL.2.1 hL.2.2 f nh hnh
    rw [htf] at h1
    cases h1
    rw [if_pos rfl] at h
    cases h
    exact h2 c o

/-- Specification of a normalisation at inference, followed by the activation. -/
noncomputable def normSpec (lrelu : ℝ → ℝ) (bn : BNorm) (x : ℕ → ℝ) (ch : ℕ) : ℝ :=
  lrelu (bn.gamma ch * ((x ch - bn.mean ch) / Real.sqrt (bn.var ch + bn.eps)) + bn.beta ch)

/-- Specification of a dense layer. -/
noncomputable def denseSpec (l : Lin) (x : ℕ → ℝ) (o : ℕ) : ℝ := l.b o + ∑ ch ∈ Finset.range l.cin, l.w ch o * x ch

theorem lin_denseSpec (l : Lin) {n : ℕ} (f : Fin n → ℕ → ℝ) (i : Fin n) : l.apply f i = denseSpec l (f i) := by
  funext o
  unfold Lin.apply conv1x1 denseSpec
  rw [add_comm]
  congr 1
  exact Finset.sum_congr rfl (fun x _ => mul_comm _ _)

theorem bnAct_normSpec (E : NetEnv) (hE : E.training = false) (bn : BNorm) {n : ℕ} (f : Fin n → ℕ → ℝ) (i : Fin n) :
    E.bnAct bn f i = normSpec E.lrelu bn (f i) := by
  funext ch
  simp [NetEnv.bnAct, BNorm.apply, normSpec, hE]

/-- **C97, the head**: at inference the logits of a row are the second dense layer of the
activated second normalisation of the first dense layer of the activated first
normalisation of this row. -/
theorem C97_head_formula (E : NetEnv) (hE : E.training = false) (h : NetHead) {n : ℕ} (f : Fin n → ℕ → ℝ) (i : Fin n) :
    h.run40 E f i = denseSpec h.dense2 (normSpec E.lrelu h.bn2 (denseSpec h.dense1 (normSpec E.lrelu h.bn1 (f i)))) := by
  have e : (fun i ch => E.lrelu (E.dropout2 (h.bn2.apply E.training (h.dense1.apply (E.dropout1 (E.bnAct h.bn1 f)))) i ch)) =
      E.bnAct h.bn2 (h.dense1.apply (E.bnAct h.bn1 f)) := by
    funext i ch
    simp [NetEnv.dropout1, NetEnv.dropout2, NetEnv.bnAct, hE]
  unfold NetHead.run40
  rw [e, lin_denseSpec, bnAct_normSpec E hE, lin_denseSpec, bnAct_normSpec E hE]

/-- **C98, the head** of the small network: the same. -/
theorem C98_head_formula (E : NetEnv) (hE : E.training = false) (h : NetHead) {n : ℕ} (f : Fin n → ℕ → ℝ) (i : Fin n) :
    h.runSmall E f i = denseSpec h.dense2 (normSpec E.lrelu h.bn2 (denseSpec h.dense1 (normSpec E.lrelu h.bn1 (f i)))) := by
  unfold NetHead.runSmall NetEnv.dropout1 NetEnv.dropout2
  simp only [hE, Bool.false_eq_true, if_false]
  rw [lin_denseSpec, bnAct_normSpec E hE, lin_denseSpec, bnAct_normSpec E hE]

end

/-! ## example -/

/-- Inference on the GPU with the density kernel of the CUDA code. -/
noncomputable def exGpuEnv : NetEnv := { exEnv with ker := cuGauss }

theorem exConv_gpuOk : exConv.GpuOk exGpuEnv := ⟨by decide, by decide, by decide, by decide, rfl⟩

theorem exNet40_gpuOk : exNet40.GpuOk exGpuEnv := by
  refine ⟨exNet40_ok, exConv_gpuOk, exConv_gpuOk, ?_, ?_⟩
  · intro l hl
    simp only [exNet40, List.mem_singleton] at hl
    subst hl
    exact ⟨exConv_gpuOk, exConv_gpuOk⟩
  · exact ⟨2, 2, le_rfl, ⟨le_rfl, le_rfl, le_rfl⟩, 2, 2, ⟨le_rfl, le_rfl, le_rfl⟩, ⟨le_rfl, le_rfl, le_rfl⟩, le_rfl⟩

theorem exSmall_gpuOk : exSmall.GpuOk exGpuEnv :=
  ⟨exSmall_ok, exConv_gpuOk, by simp [exSmall], by simp [exSmall], le_rfl⟩

/-- The hypotheses of C111 are met: the example network of C97 has a run on the GPU with
Poisson disk samples, the run returns logits, and the TensorFlow model may return them;
with cell averages the second shape gets in the batch the logits it gets alone. -/
example : (∃ rows, exNet40.GpuCall exGpuEnv 1 id "poisson" 2 3 exShapes (List.replicate 2 (List.replicate 3 (fun _ => 1))) [3, 2]
      (.ok rows) ∧
    exNet40.Call exGpuEnv id "poisson" 2 3 exShapes (List.replicate 2 (List.replicate 3 (fun _ => 1))) [3, 2] (.ok rows)) ∧
    ∃ rows rows', exNet40.GpuCall exGpuEnv 1 id "average" 2 3 exShapes (List.replicate 2 (List.replicate 3 (fun _ => 1))) [3, 2]
      (.ok rows) ∧
    exNet40.GpuCall exGpuEnv 1 id "average" 1 2 exShape [List.replicate 2 (fun _ => 1)] [2] (.ok rows') ∧
    rows'[0]? = rows[1]? := by
  have hP : PaddedOk 3 exShapes [3, 2] := ⟨rfl, by simp [exShapes], by simp⟩
  have hP' : PaddedOk 2 exShape [2] := ⟨rfl, by simp [exShape], by simp⟩
  have he : 0 < exGpuEnv.eps := by norm_num [exGpuEnv, exEnv]
  constructor
  · obtain ⟨res, h⟩ := C111_runs exGpuEnv he one_pos exNet40 exNet40_ok id "poisson" (by simp [modeNames]) hP (by simp)
      (by simp [exShapes]) (by simp) (List.replicate 2 (List.replicate 3 (fun _ => 1)))
    obtain ⟨rows, rfl, h'⟩ := C111_poisson_partial (by omega) exGpuEnv rfl he (fun ht => by cases ht) one_pos exNet40 exNet40_gpuOk id
      "poisson" (by simp) hP (by simp) (by simp [exShapes]) (by simp) rfl (by simp) res h
    exact ⟨rows, h, h'⟩
  · obtain ⟨res, h⟩ := C111_runs exGpuEnv he one_pos exNet40 exNet40_ok id "average" (by simp [modeNames]) hP (by simp)
      (by simp [exShapes]) (by simp) (List.replicate 2 (List.replicate 3 (fun _ => 1)))
    obtain ⟨res', h'⟩ := C111_runs exGpuEnv he one_pos exNet40 exNet40_ok id "average" (by simp [modeNames]) hP' (by simp)
      (by simp [exShape]) (by simp) [List.replicate 2 (fun _ => 1)]
    obtain ⟨rows, rows', rfl, rfl, _, key⟩ := C111_logits_of_a_shape_partial (by omega) exGpuEnv rfl rfl he one_pos exNet40 exNet40_gpuOk
      id "average" (by simp) hP (by simp) (by simp [exShapes]) (by simp) hP' (by simp) (by simp [exShape]) (by simp)
      rfl (by simp) rfl (by simp) (fun _ => 1) (by simp) (by simp) res res' h h'
    refine ⟨rows, rows', h, h', key 1 0 (by simp [exShapes]) (by simp [exShape]) ?_⟩
    simp only [exShapes, exShape, List.getD_cons_succ, List.getD_cons_zero, List.take_succ_cons, List.take_zero]
    exact List.Perm.swap _ _ _

/-- The same for the small network. -/
example : ∃ rows, exSmall.GpuCall exGpuEnv 1 id "poisson" 2 2 exTiny [[fun _ => 1, fun _ => 0], [fun _ => 2, fun _ => 3]] [1, 2]
      (.ok rows) ∧
    exSmall.Call exGpuEnv id "poisson" 2 2 exTiny [[fun _ => 1, fun _ => 0], [fun _ => 2, fun _ => 3]] [1, 2] (.ok rows) := by
  have hP : PaddedOk 2 exTiny [1, 2] := ⟨rfl, by simp [exTiny], by simp⟩
  have he : 0 < exGpuEnv.eps := by norm_num [exGpuEnv, exEnv]
  obtain ⟨res, h⟩ := C111_small_runs exGpuEnv he one_pos exSmall exSmall_ok id "poisson" (by simp [modeNames]) hP (by simp)
    (by simp [exTiny]) (by simp) [[fun _ => 1, fun _ => 0], [fun _ => 2, fun _ => 3]]
  obtain ⟨rows, rfl, h'⟩ := C111_small_poisson_partial (by omega) exGpuEnv rfl he (fun ht => by cases ht) one_pos exSmall exSmall_gpuOk id
    "poisson" (by simp) hP (by simp) (by simp [exTiny]) (by simp) rfl (by simp) res h
  exact ⟨rows, h, h'⟩

end PC
