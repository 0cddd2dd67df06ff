import Verif.NetGrad
import Verif.Props.HeadGrad
import Verif.Props.MlpGrad
import Verif.Props.PcGrad
import Verif.Props.GpuNet

/-!
# Properties of the gradients of the small classification network (C160)
-/

set_option linter.unusedVariables false
set_option linter.unusedSectionVars false

namespace PC

open Filter Topology

section
variable {k : ℕ}

/-! ### Convolutions whose parameters move -/

/-- A convolution whose trainable variables are functions of `θ`, with their velocities. -/
inductive ConvCurve (D : ℕ)
  | mc (ci co ml : ℕ) (cs : List MlpCurve) (fin : ℝ → ℕ → ℕ → ℕ → ℝ) (fin' : ℕ → ℕ → ℕ → ℝ)
  | pc (L : ℝ → PCLayer ℝ) (V : PCLayer ℝ)
  | kp (L : ℝ → KPLayer D) (w' : ℕ → ℕ → ℝ)

/-- The convolution at `θ`. -/
def ConvCurve.at {D : ℕ} : ConvCurve D → ℝ → NetConv D
  | .mc ci co ml cs fin _, θ => .mc ⟨ci, co, ml, cs.map (fun c => c.at θ), fin θ⟩
  | .pc L _, θ => .pc (L θ)
  | .kp L _, θ => .kp (L θ)

/-- The convolution has `ci` input and `co` output channels, its sizes are among those of the CUDA operations, and the
variables have the given velocities at `θ₀`; kernel points stay where they are. -/
def ConvCurve.Moves {D : ℕ} (θ₀ : ℝ) (ci co : ℕ) : ConvCurve D → Prop
  | .mc ci' co' ml cs fin fin' => ci' = ci ∧ co' = co ∧ ml ≠ 0 ∧ ml ∣ co ∧ cs ≠ [] ∧ opBasisOk (ml * curveOut D cs) = true ∧
      opFeaturesOk ci = true ∧ MlpMoves θ₀ ml D cs ∧
      ∀ mi < ml, ∀ t < ci * curveOut D cs, ∀ o < co / ml, HasDerivAt (fun θ => fin θ mi t o) (fin' mi t o) θ₀
  | .pc L V => (∀ θ, (L θ).cin = ci ∧ (L θ).hid = V.hid) ∧ opBasisOk V.hid = true ∧ opFeaturesOk ci = true ∧
      PcMoves θ₀ D V.hid L V ∧ ∀ t < ci * V.hid, ∀ o < co, HasDerivAt (fun θ => (L θ).weights t o) (V.weights t o) θ₀
  | .kp L w' => (∀ θ, (L θ).cin = ci ∧ (L θ).nk = (L θ₀).nk ∧ (L θ).nkp = (L θ₀).nk ∧ (L θ).offs = none ∧
        (L θ).kp = (L θ₀).kp ∧ (L θ).interp = (L θ₀).interp) ∧ 0 < (L θ₀).nk ∧ (L θ₀).nk ≤ 64 ∧ opFeaturesOk ci = true ∧
      ∀ t < ci * (L θ₀).nk, ∀ o < co, HasDerivAt (fun θ => (L θ).weights t o) (w' t o) θ₀

/-- No activation function inside the convolution is evaluated at its kink, and the density network of `PointConv` does
not vanish. -/
def ConvCurve.Smooth (a : NonLin) (θ₀ : ℝ) (cin cout : Cloud (Fin (k + 2) → ℝ)) (radius : ℝ) : ConvCurve (k + 2) → Prop
  | .mc _ _ ml cs _ _ => ∀ p c, cin.batch p = cout.batch c → ∑ d, (cin.pts p d - cout.pts c d) ^ 2 < radius ^ 2 →
      MlpSmooth a ml (k + 2) (cs.map (fun c => c.at θ₀)) (fun _ (_ : Fin 1) => rowOf (fun d => (cin.pts p d - cout.pts c d) / radius))
  | .pc L V => ∀ p c, p ∈ nbrs cin cout radius c →
      (∀ b < V.hid, a.SmoothAt (∑ i ∈ Finset.range (k + 2), rowOf (fun d => cin.pts p d - cout.pts c d) i *
        (L θ₀).axis i b + (L θ₀).bias b)) ∧
      (∀ i < 16, density cuGauss cin (fun _ => 1 / 5) (fun _ => radius) p /
        maxOver (nbrs cin cout radius c) (density cuGauss cin (fun _ => 1 / 5) (fun _ => radius)) * (L θ₀).pw1 i + (L θ₀).pb1 i ≠ 0) ∧
      densityNet (L θ₀).pw1 (L θ₀).pb1 (L θ₀).pw2 (L θ₀).pb2 (density cuGauss cin (fun _ => 1 / 5) (fun _ => radius) p /
        maxOver (nbrs cin cout radius c) (density cuGauss cin (fun _ => 1 / 5) (fun _ => radius))) ≠ 0
  | .kp _ _ => True

/-- Gradients times velocities of all variables of the convolution. -/
noncomputable def ConvCurve.pairing {D : ℕ} (θ₀ : ℝ) (ci co : ℕ) : ConvCurve D → ConvGrads → ℝ
  | .mc _ _ ml cs _ fin', .mc lG wG => mlpPairing ml D cs lG +
      ∑ mi ∈ Finset.range ml, ∑ t ∈ Finset.range (ci * curveOut D cs), ∑ o ∈ Finset.range (co / ml), wG mi t o * fin' mi t o
  | .pc _ V, .pc _ net wG => pcPairing D V.hid net V +
      ∑ t ∈ Finset.range (ci * V.hid), ∑ o ∈ Finset.range co, wG t o * V.weights t o
  | .kp L w', .kp wG => ∑ t ∈ Finset.range (ci * (L θ₀).nk), ∑ o ∈ Finset.range co, wG t o * w' t o
  | _, _ => 0

/-- There are backward passes for every gradient. -/
theorem NetConv.gpuTrain_runs (a : NonLin) {Ws : ℕ} (hW : 0 < Ws) (eps : ℝ) (L : NetConv (k + 2)) (co : ℕ)
    {cin cout : Cloud (Fin (k + 2) → ℝ)} (h1 : GpuCloud Ws cin) (h2 : GpuCloud Ws cout) {radius : ℝ} (hr : 0 < radius)
    (f : Fin cin.n → ℕ → ℝ) (G : Fin cout.n → ℕ → ℝ) : ∃ g fG, L.GpuTrain a Ws eps co cin cout radius f G g fG := by
  match L with
  | .mc L =>
    obtain ⟨ids, mG, xG, fG, wG, h⟩ := (C109_runs a.fwd Ws eps cin cout radius (1 / 5) hr hW h1.pos h2.pos h1.one h2.one f G).1 L
    exact ⟨_, fG, ids, mG, xG, wG, h, rfl⟩
  | .pc L =>
    obtain ⟨ids, g, xG, yG, fG, wG, h⟩ := C158_runs a Ws eps L co cin cout radius (1 / 5) hr hW h1.pos h2.pos h1.one h2.one f G
    exact ⟨_, fG, ids, g, xG, yG, wG, h, rfl⟩
  | .kp L =>
    obtain ⟨ids, bG, fG, wG, h⟩ := (C109_runs a.fwd Ws eps cin cout radius (1 / 5) hr hW h1.pos h2.pos h1.one h2.one f G).2.2 L co none
    exact ⟨_, fG, ids, bG, wG, h, rfl⟩

/-- **C160, one convolution**: features and variables move, points stay.  For every backward pass at `θ₀` and all runs of
the layer, gradients times velocities are the derivative. -/
theorem C160_conv_partial (hk : k ≤ 1) (E : NetEnv) (a : NonLin) (hE : E.act = a.fwd) {Ws : ℕ} (hW : 0 < Ws) (θ₀ : ℝ) (ci co : ℕ)
    (c : ConvCurve (k + 2)) (hc : c.Moves θ₀ ci co) {cin cout : Cloud (Fin (k + 2) → ℝ)} (h1 : GpuCloud Ws cin)
    (h2 : GpuCloud Ws cout) {radius : ℝ} (hr : 0 < radius) (hs : c.Smooth a θ₀ cin cout radius)
    (f : ℝ → Fin cin.n → ℕ → ℝ) (f' : Fin cin.n → ℕ → ℝ) (hf : MatMoves θ₀ ci f f') (out : ℝ → Fin cout.n → ℕ → ℝ)
    (hcall : ∀ θ, (c.at θ).GpuCall E Ws cin cout radius (f θ) (.ok (out θ)))
    (G : Fin cout.n → ℕ → ℝ) (g : ConvGrads) (fG : Fin cin.n → ℕ → ℝ)
    (ht : (c.at θ₀).GpuTrain a Ws E.eps co cin cout radius (f θ₀) G g fG) :
    HasDerivAt (fun θ => matPairing co G (out θ)) (c.pairing θ₀ ci co g + matPairing ci fG f') θ₀ := by
  obtain ⟨n, x, bi, Bi⟩ := cin
  obtain ⟨m, y, bo, Bo⟩ := cout
  have hfix : ∀ {n m : ℕ} (u : Fin n → Fin (k + 2) → ℝ) (v : Fin m → Fin (k + 2) → ℝ) (p : Fin n) (q : Fin m),
      OffRadius θ₀ radius (fun (_ : ℝ) d => u p d - v q d) := fun u v p q => Or.inl fun _ => rfl
  match c with
  | .mc ci' co' ml cs fin fin' =>
    obtain ⟨rfl, rfl, b1, b2, b3, b4, b5, b6, b7⟩ := hc
    obtain ⟨ids, mG, xG, wG, t1, rfl⟩ := ht
    obtain ⟨lG, hlG⟩ : ∃ lG, lG = (⟨ci', co', ml, cs.map (fun c => c.at θ₀), fin θ₀⟩ : MCLayer ℝ).mlpBackward a (k + 2)
      (fun j : Fin ids.length => rowOf (fun d => (x (ids.get j).1 d - y (ids.get j).2 d) / radius)) mG := ⟨_, rfl⟩
    have hcall' : ∀ θ, (⟨ci', co', ml, cs.map (fun c => c.at θ), fin θ⟩ : MCLayer ℝ).GpuCall a.fwd Ws E.eps ⟨n, x, bi, Bi⟩
        ⟨m, y, bo, Bo⟩ radius (1 / 5) (f θ) (out θ) := by
      intro θ
      obtain ⟨o, h, e⟩ := hcall θ
      cases e
      rw [← hE]
      exact h
    have := C156_mcconv_partial a Ws E.eps radius (1 / 5) hr (by norm_num) hW n m h1.pos h2.pos h1.one h2.one hk bi bo Bi Bo ci' co' ml
      _ b1 b2 b4 b5 θ₀ (fun _ => x) (fun _ => y) f cs b3 rfl fin (fun p q _ => hfix x x p q) (fun p q _ => hfix x y p q)
      (fun _ _ => 0) (fun _ _ => 0) f' fin' (fun _ _ => hasDerivAt_const _ _) (fun _ _ => hasDerivAt_const _ _) hf b6 hs b7 out
      hcall' G ids mG xG fG wG t1 lG.1 lG.2 hlG _ _ rfl
    refine this.congr_deriv ?_
    rw [← hlG]
    simp only [mul_zero, Finset.sum_const_zero, add_zero]
    unfold ConvCurve.pairing matPairing
    dsimp only
    ring
  | .pc L V =>
    obtain ⟨b1, b2, b3, b4, b5⟩ := hc
    obtain ⟨ids, net, xG, yG, wG, t1, rfl⟩ := ht
    have hcall' : ∀ θ, (L θ).GpuCall a.fwd Ws E.eps ⟨n, x, bi, Bi⟩ ⟨m, y, bo, Bo⟩ radius (1 / 5) (f θ) (out θ) := by
      intro θ
      obtain ⟨o, h, e⟩ := hcall θ
      cases e
      rw [← hE]
      exact h
    have := C158_pointconv_partial a Ws E.eps radius (1 / 5) hr (by norm_num) hW n m h1.pos h2.pos h1.one h2.one hk bi bo Bi Bo ci co
      V.hid b2 b3 θ₀ (fun _ => x) (fun _ => y) f L b1 (fun p q _ => hfix x x p q) (fun p q _ => hfix x y p q)
      (fun _ _ => 0) (fun _ _ => 0) f' V (fun _ _ => hasDerivAt_const _ _) (fun _ _ => hasDerivAt_const _ _) hf b4 b5
      (fun _ => density cuGauss ⟨n, x, bi, Bi⟩ (fun _ => 1 / 5) (fun _ => radius)) (fun _ _ => rfl) _ (fun _ => rfl)
      (fun p c hp => (hs p c hp).1) (fun p c hp => (hs p c hp).2.1) (fun p c hp => (hs p c hp).2.2)
      (fun c p _ p' _ _ _ => by simp only [deriv_const]) out hcall' G ids net xG yG fG wG t1
    refine this.congr_deriv ?_
    simp only [mul_zero, Finset.sum_const_zero, add_zero]
    unfold ConvCurve.pairing matPairing
    ring
  | .kp L w' =>
    obtain ⟨b1, b2, b3, b4, b5⟩ := hc
    obtain ⟨ids, bG, wG, t1, rfl⟩ := ht
    have hcall' : ∀ θ, ∃ o : ℕ → ℕ → ℝ, (L θ).GpuCall Ws E.eps ⟨n, x, bi, Bi⟩ ⟨m, y, bo, Bo⟩ radius none (f θ) (.ok (m, o)) ∧
        ∀ i : Fin m, out θ i = o i.val := by
      intro θ
      obtain ⟨r, h, e⟩ := hcall θ
      match r, h, e with
      | .ok (n', o), h, e =>
        dsimp only at e
        split at e
        · rename_i hn
          subst hn
          exact ⟨o, h, fun i => by rw [Except.ok.inj e]⟩
        · cases e
    choose o ho hoo using hcall'
    have := C109_kpconv_partial Ws E.eps radius none hr hW n m h2.pos h2.one hk bi bo Bi Bo ci co (L θ₀).nk b2 b3 b4 θ₀
      (fun _ => x) (fun _ => y) f L (fun θ => ⟨(b1 θ).1, (b1 θ).2.1, (b1 θ).2.2.1, (b1 θ).2.2.2.1⟩) (fun p q _ => hfix x y p q)
      f' (fun _ _ _ => 0) w' (fun _ _ => continuousAt_const) (fun _ _ => continuousAt_const) hf
      (fun p c _ _ b _ => by
        simp only [(b1 _).2.2.2.2.1, (b1 _).2.2.2.2.2]
        exact hasDerivAt_const _ _) b5 o ho G ids bG fG wG t1
    have e : (fun θ => matPairing co G (out θ)) = fun θ => ∑ c : Fin m, ∑ oo ∈ Finset.range co, G c oo * o θ c.val oo := by
      funext θ
      exact Finset.sum_congr rfl fun i _ => Finset.sum_congr rfl fun ch _ => by rw [hoo]
    rw [e]
    refine this.congr_deriv ?_
    simp only [mul_zero, Finset.sum_const_zero, zero_add]
    unfold ConvCurve.pairing matPairing
    ring

/-- Matrices whose weighted sums all have derivatives move. -/
theorem matMoves_of_pairings (θ₀ : ℝ) (c : ℕ) {n : ℕ} (out : ℝ → Fin n → ℕ → ℝ)
    (h : ∀ G, ∃ d, HasDerivAt (fun θ => matPairing c G (out θ)) d θ₀) : ∃ o', MatMoves θ₀ c out o' ∧
      ∀ G d, HasDerivAt (fun θ => matPairing c G (out θ)) d θ₀ → matPairing c G o' = d := by
  have h1 : ∀ i, ∀ ch < c, DifferentiableAt ℝ (fun θ => out θ i ch) θ₀ := by
    intro i ch hch
    obtain ⟨d, hd⟩ := h (fun i' ch' => if i' = i ∧ ch' = ch then 1 else 0)
    have e : (fun θ => matPairing c (fun i' ch' => if i' = i ∧ ch' = ch then (1 : ℝ) else 0) (out θ)) = fun θ => out θ i ch := by
      funext θ
      unfold matPairing
      rw [Finset.sum_eq_single i (fun j _ hj => Finset.sum_eq_zero fun ch' _ => by simp [hj]) (fun hi => absurd (Finset.mem_univ i) hi),
        Finset.sum_eq_single ch (fun ch' _ hj => by simp [hj]) (fun hh => absurd (Finset.mem_range.mpr hch) hh)]
      simp
    rw [e] at hd
    exact hd.differentiableAt
  refine ⟨fun i ch => deriv (fun θ => out θ i ch) θ₀, fun i ch hch => (h1 i ch hch).hasDerivAt, fun G d hd => ?_⟩
  refine HasDerivAt.unique (𝕜 := ℝ) ?_ hd
  exact HasDerivAt.fun_sum fun i _ => HasDerivAt.fun_sum fun ch hch => ((h1 i ch (Finset.mem_range.mp hch)).hasDerivAt).const_mul _

theorem conv_node (hk : k ≤ 1) (E : NetEnv) (a : NonLin) (hE : E.act = a.fwd) {Ws : ℕ} (hW : 0 < Ws) (θ₀ : ℝ) (ci co : ℕ)
    (c : ConvCurve (k + 2)) (hc : c.Moves θ₀ ci co) {cin cout : Cloud (Fin (k + 2) → ℝ)} (h1 : GpuCloud Ws cin)
    (h2 : GpuCloud Ws cout) {radius : ℝ} (hr : 0 < radius) (hs : c.Smooth a θ₀ cin cout radius)
    (f : ℝ → Fin cin.n → ℕ → ℝ) (f' : Fin cin.n → ℕ → ℝ) (hf : MatMoves θ₀ ci f f') (out : ℝ → Fin cout.n → ℕ → ℝ)
    (hcall : ∀ θ, (c.at θ).GpuCall E Ws cin cout radius (f θ) (.ok (out θ))) :
    ∃ o', MatMoves θ₀ co out o' ∧ ∀ G g fG, (c.at θ₀).GpuTrain a Ws E.eps co cin cout radius (f θ₀) G g fG →
      matPairing co G o' = c.pairing θ₀ ci co g + matPairing ci fG f' := by
  obtain ⟨o', ho, hp⟩ := matMoves_of_pairings θ₀ co out fun G => by
    obtain ⟨g, fG, ht⟩ := NetConv.gpuTrain_runs a hW E.eps (c.at θ₀) co h1 h2 hr (f θ₀) G
    exact ⟨_, C160_conv_partial hk E a hE hW θ₀ ci co c hc h1 h2 hr hs f f' hf out hcall G g fG ht⟩
  exact ⟨o', ho, fun G g fG ht => hp G _ (C160_conv_partial hk E a hE hW θ₀ ci co c hc h1 h2 hr hs f f' hf out hcall G g fG ht)⟩

/-- Batch normalisation and activation. -/
theorem bnAct_node (E : NetEnv) (hT : E.training = true) (hL : E.lrelu = kerasLrelu) (θ₀ : ℝ) (c : ℕ) (bn : ℝ → BNorm) (V : BNorm)
    (hb : BnMoves θ₀ c bn V) {n : ℕ} (f : ℝ → Fin n → ℕ → ℝ) (f' : Fin n → ℕ → ℝ) (hf : MatMoves θ₀ c f f')
    (hk : ∀ i, ∀ ch < c, (bn θ₀).apply true (f θ₀) i ch ≠ 0) :
    ∃ o', MatMoves θ₀ c (fun θ => E.bnAct (bn θ) (f θ)) o' ∧ ∀ G, matPairing c G o' =
      bnPairing c (bnActBack (bn θ₀) (f θ₀) G) V + matPairing c (bnActBack (bn θ₀) (f θ₀) G).x f' := by
  obtain ⟨a1', h1, p1⟩ := C159_batchNorm θ₀ c bn V hb f f' hf
  obtain ⟨o', h2, p2⟩ := act_mask θ₀ c (fun _ _ => 1) _ a1' h1 (fun i ch hch => Or.inr (hk i ch hch))
  have e : ∀ u : Fin n → ℕ → ℝ, maskMul (fun _ _ => 1) u = u := fun u => by
    funext i ch
    simp [maskMul]
  refine ⟨o', ?_, fun G => ?_⟩
  · unfold NetEnv.bnAct
    rw [hT, hL]
    simpa only [e] using h2
  · rw [p2, p1, e]
    rfl

theorem gather_node (θ₀ : ℝ) (c : ℕ) {n m : ℕ} (σ : Fin n → Fin m) (f : ℝ → Fin m → ℕ → ℝ) (f' : Fin m → ℕ → ℝ)
    (hf : MatMoves θ₀ c f f') : MatMoves θ₀ c (fun θ => f θ ∘ σ) (f' ∘ σ) ∧
      ∀ G, matPairing c G (f' ∘ σ) = matPairing c (gatherBack σ G) f' := by
  refine ⟨fun i ch hch => hf (σ i) ch hch, fun G => ?_⟩
  unfold matPairing gatherBack
  simp only [Finset.sum_mul]
  have : ∀ p : Fin m, ∑ ch ∈ Finset.range c, ∑ i, (if σ i = p then G i ch else 0) * f' p ch =
      ∑ i, if σ i = p then ∑ ch ∈ Finset.range c, G i ch * f' p ch else 0 := by
    intro p
    rw [Finset.sum_comm]
    refine Finset.sum_congr rfl fun i _ => ?_
    split <;> simp
  simp only [this]
  conv_rhs => rw [Finset.sum_comm]
  refine Finset.sum_congr rfl fun i _ => ?_
  simp

/-! ### The small network -/

/-- A level of the small network whose variables move; `c1`, `c2` are the numbers of channels after the convolution and
after the `Conv1x1`. -/
structure LevelCurve (D : ℕ) where
  conv : ConvCurve D
  bn1 : ℝ → BNorm
  bn1' : BNorm
  lin : ℝ → Lin
  lin' : Lin
  bn2 : ℝ → BNorm
  bn2' : BNorm
  sampleRadius : ℝ
  convRadius : ℝ
  c1 : ℕ
  c2 : ℕ

/-- The level at `θ`. -/
def LevelCurve.at {D : ℕ} (l : LevelCurve D) (θ : ℝ) : LevelSmall D :=
  ⟨l.conv.at θ, l.bn1 θ, l.lin θ, l.bn2 θ, l.sampleRadius, l.convRadius⟩

/-- The small network with moving variables: `cl` channels after the last convolution, `c1` between the dense layers of
the head, `C` classes. -/
structure SmallCurve (D : ℕ) where
  levels : List (LevelCurve D)
  last : ConvCurve D
  lastSampleRadius : ℝ
  lastConvRadius : ℝ
  head : ℝ → NetHead
  head' : NetHead
  cl : ℕ
  c1 : ℕ
  C : ℕ

/-- The network at `θ`. -/
def SmallCurve.at {D : ℕ} (N : SmallCurve D) (θ : ℝ) : NetSmall D :=
  ⟨N.levels.map (fun l => l.at θ), N.last.at θ, N.lastSampleRadius, N.lastConvRadius, N.head θ⟩

/-- All variables of the levels have the given velocities, and channels fit together, starting with `ci` channels. -/
def levelsMove {D : ℕ} (θ₀ : ℝ) (last : ConvCurve D) (cl : ℕ) : ℕ → List (LevelCurve D) → Prop
  | ci, [] => last.Moves θ₀ ci cl
  | ci, l :: ls => 0 < l.convRadius ∧ l.conv.Moves θ₀ ci l.c1 ∧ BnMoves θ₀ l.c1 l.bn1 l.bn1' ∧
      LinMoves θ₀ l.c1 l.c2 l.lin l.lin' ∧ BnMoves θ₀ l.c2 l.bn2 l.bn2' ∧ levelsMove θ₀ last cl l.c2 ls

/-- Gradients times velocities of the variables of the levels and of the last convolution. -/
noncomputable def levelsPairing {D : ℕ} (θ₀ : ℝ) (last : ConvCurve D) (cl : ℕ) : ℕ → List (LevelCurve D) → List LevelGrads →
    ConvGrads → ℝ
  | ci, l :: ls, g :: gs, gl => l.conv.pairing θ₀ ci l.c1 g.conv + bnPairing l.c1 g.bn1 l.bn1' + linPairing l.c1 l.c2 g.lin l.lin' +
      bnPairing l.c2 g.bn2 l.bn2' + levelsPairing θ₀ last cl l.c2 ls gs gl
  | ci, _, _, gl => last.pairing θ₀ ci cl gl

/-- No activation function of the levels is evaluated at its kink, whatever the schedule. -/
def levelsSmooth (E : NetEnv) (a : NonLin) (Ws : ℕ) (θ₀ : ℝ) (N : SmallCurve (k + 2)) : (o : CloudObj (Fin (k + 2) → ℝ)) →
    (Fin o.c.n → ℕ → ℝ) → List (CloudObj (Fin (k + 2) → ℝ)) → List (LevelCurve (k + 2)) → Prop
  | o, f, [o'], [] => N.last.Smooth a θ₀ o.c o'.c N.lastConvRadius
  | o, f, o' :: os, l :: ls => l.conv.Smooth a θ₀ o.c o'.c l.convRadius ∧
      ∀ r, (l.conv.at θ₀).GpuCall E Ws o.c o'.c l.convRadius f (.ok r) →
        (∀ i, ∀ ch < l.c1, (l.bn1 θ₀).apply true r i ch ≠ 0) ∧
        (∀ i, ∀ ch < l.c2, (l.bn2 θ₀).apply true ((l.lin θ₀).apply (E.bnAct (l.bn1 θ₀) r)) i ch ≠ 0) ∧
        levelsSmooth E a Ws θ₀ N o' (E.bnAct (l.bn2 θ₀) ((l.lin θ₀).apply (E.bnAct (l.bn1 θ₀) r))) os ls
  | _, _, _, _ => True

theorem gpuSmallTrain_cons (E : NetEnv) (a : NonLin) (Ws : ℕ) (N : NetSmall (k + 2)) (cl : ℕ) (o o' : CloudObj (Fin (k + 2) → ℝ))
    (f : Fin o.c.n → ℕ → ℝ) (os : List (CloudObj (Fin (k + 2) → ℝ))) (l : LevelSmall (k + 2)) (ls : List (LevelSmall (k + 2)))
    (c : ℕ × ℕ) (cs : List (ℕ × ℕ)) (n : ℕ) (out G : Fin n → ℕ → ℝ) (gs : List LevelGrads) (gl : ConvGrads) (fG : Fin o.c.n → ℕ → ℝ) :
    gpuSmallTrain E a Ws N cl o f (o' :: os) (l :: ls) (c :: cs) n out G gs gl fG ↔
    ∃ (r G' : Fin o'.c.n → ℕ → ℝ) (gc : ConvGrads)
      (gs' : List LevelGrads) (g1 g3 : BnGrads o'.c.n) (g2 : LinGrads o'.c.n),
      l.conv.GpuCall E Ws o.c o'.c l.convRadius f (.ok r) ∧
      gpuSmallTrain E a Ws N cl o' (E.bnAct l.bn2 (l.lin.apply (E.bnAct l.bn1 r))) os ls cs n out G gs' gl G' ∧
      g3 = bnActBack l.bn2 (l.lin.apply (E.bnAct l.bn1 r)) G' ∧
      g2 = l.lin.grad c.2 (E.bnAct l.bn1 r) g3.x ∧
      g1 = bnActBack l.bn1 r g2.x ∧
      l.conv.GpuTrain a Ws E.eps c.1 o.c o'.c l.convRadius f g1.x gc fG ∧
      gs = ⟨o'.c.n, gc, g1, g2, g3⟩ :: gs' := by
  cases os <;> rfl

theorem levelsSmooth_cons (E : NetEnv) (a : NonLin) (Ws : ℕ) (θ₀ : ℝ) (N : SmallCurve (k + 2)) (o o' : CloudObj (Fin (k + 2) → ℝ))
    (f : Fin o.c.n → ℕ → ℝ) (os : List (CloudObj (Fin (k + 2) → ℝ))) (l : LevelCurve (k + 2)) (ls : List (LevelCurve (k + 2))) :
    levelsSmooth E a Ws θ₀ N o f (o' :: os) (l :: ls) ↔ l.conv.Smooth a θ₀ o.c o'.c l.convRadius ∧
      ∀ r, (l.conv.at θ₀).GpuCall E Ws o.c o'.c l.convRadius f (.ok r) →
        (∀ i, ∀ ch < l.c1, (l.bn1 θ₀).apply true r i ch ≠ 0) ∧
        (∀ i, ∀ ch < l.c2, (l.bn2 θ₀).apply true ((l.lin θ₀).apply (E.bnAct (l.bn1 θ₀) r)) i ch ≠ 0) ∧
        levelsSmooth E a Ws θ₀ N o' (E.bnAct (l.bn2 θ₀) ((l.lin θ₀).apply (E.bnAct (l.bn1 θ₀) r))) os ls := by
  cases os <;> rfl

/-- The forward pass of a training step is a run of the network. -/
theorem gpuSmallTrain_forward (E : NetEnv) (a : NonLin) (Ws : ℕ) (N : NetSmall (k + 2)) (cl : ℕ) :
    ∀ (ls : List (LevelSmall (k + 2))) (cs : List (ℕ × ℕ)) (os : List (CloudObj (Fin (k + 2) → ℝ))) (o : CloudObj (Fin (k + 2) → ℝ))
      (f : Fin o.c.n → ℕ → ℝ) (n : ℕ) (out G : Fin n → ℕ → ℝ) (gs : List LevelGrads) (gl : ConvGrads) (fG : Fin o.c.n → ℕ → ℝ),
      gpuSmallTrain E a Ws N cl o f os ls cs n out G gs gl fG → gpuNetSmallLoop E Ws N o f os ls (.ok ⟨n, out⟩)
  | [], [], [o'], o, f, n, out, G, gs, gl, fG, h => by
    obtain ⟨r, G', h1, h2, _⟩ := h
    cases h2
    exact ⟨_, h1, rfl⟩
  | l :: ls, c :: cs, o' :: os, o, f, n, out, G, gs, gl, fG, h => by
    obtain ⟨r, G', gc, gs', g1, g3, g2, h1, h2, _⟩ := (gpuSmallTrain_cons ..).mp h
    exact (gpuNetSmallLoop_cons ..).mpr ⟨_, h1, gpuSmallTrain_forward E a Ws N cl ls cs os o' _ n out G gs' gl G' h2⟩
  | [], [], [], o, f, n, out, G, gs, gl, fG, h => h.elim
  | [], [], _ :: _ :: _, o, f, n, out, G, gs, gl, fG, h => h.elim
  | [], _ :: _, [], o, f, n, out, G, gs, gl, fG, h => h.elim
  | [], _ :: _, [_], o, f, n, out, G, gs, gl, fG, h => h.elim
  | [], _ :: _, _ :: _ :: _, o, f, n, out, G, gs, gl, fG, h => h.elim
  | _ :: _, [], [], o, f, n, out, G, gs, gl, fG, h => h.elim
  | _ :: _, [], [_], o, f, n, out, G, gs, gl, fG, h => h.elim
  | _ :: _, [], _ :: _ :: _, o, f, n, out, G, gs, gl, fG, h => h.elim
  | _ :: _, _ :: _, [], o, f, n, out, G, gs, gl, fG, h => h.elim

/-- **C160, the levels**: induction over the levels. -/
theorem C160_levels_partial (hk : k ≤ 1) (E : NetEnv) (a : NonLin) (hE : E.act = a.fwd) (hT : E.training = true)
    (hL : E.lrelu = kerasLrelu) {Ws : ℕ} (hW : 0 < Ws) (θ₀ : ℝ) (N : SmallCurve (k + 2)) (hlr : 0 < N.lastConvRadius) :
    ∀ (ls : List (LevelCurve (k + 2))) (os : List (CloudObj (Fin (k + 2) → ℝ))) (o : CloudObj (Fin (k + 2) → ℝ))
      (ci : ℕ) (_ : levelsMove θ₀ N.last N.cl ci ls) (_ : ∀ p ∈ o :: os, GpuCloud Ws p.c)
      (f : ℝ → Fin o.c.n → ℕ → ℝ) (f' : Fin o.c.n → ℕ → ℝ) (_ : MatMoves θ₀ ci f f')
      (_ : levelsSmooth E a Ws θ₀ N o (f θ₀) os ls)
      (n : ℕ) (out : ℝ → Fin n → ℕ → ℝ)
      (_ : ∀ θ, θ ≠ θ₀ → gpuNetSmallLoop E Ws (N.at θ) o (f θ) os (ls.map (fun l => l.at θ)) (.ok ⟨n, out θ⟩))
      (G : Fin n → ℕ → ℝ) (gs : List LevelGrads) (gl : ConvGrads) (fG : Fin o.c.n → ℕ → ℝ)
      (_ : gpuSmallTrain E a Ws (N.at θ₀) N.cl o (f θ₀) os (ls.map (fun l => l.at θ₀)) (ls.map (fun l => (l.c1, l.c2))) n
        (out θ₀) G gs gl fG),
      ∃ o', MatMoves θ₀ N.cl out o' ∧
        matPairing N.cl G o' = levelsPairing θ₀ N.last N.cl ci ls gs gl + matPairing ci fG f'
  | [], [], o, ci, hm, hc, f, f', hf, hs, n, out, hrun, G, gs, gl, fG, ht => ht.elim
  | [], _ :: _ :: _, o, ci, hm, hc, f, f', hf, hs, n, out, hrun, G, gs, gl, fG, ht => ht.elim
  | _ :: _, [], o, ci, hm, hc, f, f', hf, hs, n, out, hrun, G, gs, gl, fG, ht => ht.elim
  | [], [q], o, ci, hm, hc, f, f', hf, hs, n, out, hrun, G, gs, gl, fG, ht => by
    obtain ⟨r, G', h1, h2, h3, rfl⟩ := ht
    obtain ⟨rfl, h4⟩ := Sigma.mk.inj h2
    have h5 := Prod.mk.inj (eq_of_heq h4)
    obtain ⟨h6, rfl⟩ := h5
    have hall : ∀ θ, ∃ r, (N.last.at θ).GpuCall E Ws o.c q.c N.lastConvRadius (f θ) (.ok r) ∧ out θ = r ∘ q.c.sortedIndicesBatch := by
      intro θ
      by_cases hθ : θ = θ₀
      · subst hθ
        exact ⟨r, h1, h6⟩
      · obtain ⟨r', a1, a2⟩ := hrun θ hθ
        match r', a1, a2 with
        | .ok r', a1, a2 =>
          have := Sigma.mk.inj (Except.ok.inj a2)
          exact ⟨r', a1, eq_of_heq this.2⟩
    choose ro hro hout using hall
    obtain ⟨c', m1, p1⟩ := conv_node hk E a hE hW θ₀ ci N.cl N.last hm (hc o (by simp)) (hc q (by simp)) hlr hs f f' hf ro hro
    obtain ⟨m2, p2⟩ := gather_node θ₀ N.cl q.c.sortedIndicesBatch ro c' m1
    refine ⟨_, ?_, (p2 G).trans (p1 _ gl fG h3)⟩
    have e : out = fun θ => ro θ ∘ q.c.sortedIndicesBatch := funext hout
    rw [e]
    exact m2
  | l :: ls, q :: os, o, ci, hm, hc, f, f', hf, hs, n, out, hrun, G, gs, gl, fG, ht => by
    obtain ⟨r, G', gc, gs', g1, g3, g2, h1, h2, hg3, hg2, hg1, h3, rfl⟩ := (gpuSmallTrain_cons ..).mp ht
    obtain ⟨m0, mc, mb1, ml, mb2, mrest⟩ := hm
    obtain ⟨s1, s2⟩ := (levelsSmooth_cons ..).mp hs
    obtain ⟨s3, s4, s5⟩ := s2 r h1
    have hall : ∀ θ, ∃ r', (l.conv.at θ).GpuCall E Ws o.c q.c l.convRadius (f θ) (.ok r') ∧ (θ = θ₀ → r' = r) ∧
        (θ ≠ θ₀ → gpuNetSmallLoop E Ws (N.at θ) q (E.bnAct (l.bn2 θ) ((l.lin θ).apply (E.bnAct (l.bn1 θ) r'))) os
          (ls.map (fun l => l.at θ)) (.ok ⟨n, out θ⟩)) := by
      intro θ
      by_cases hθ : θ = θ₀
      · subst hθ
        exact ⟨r, h1, fun _ => rfl, fun h => absurd rfl h⟩
      · obtain ⟨r', a1, a2⟩ := (gpuNetSmallLoop_cons ..).mp (hrun θ hθ)
        match r', a1, a2 with
        | .ok r', a1, a2 => exact ⟨r', a1, fun h => absurd h hθ, fun _ => a2⟩
    choose ro hro hro₀ hnext using hall
    have hr0 : ro θ₀ = r := hro₀ θ₀ rfl
    obtain ⟨c', m1, p1⟩ := conv_node hk E a hE hW θ₀ ci l.c1 l.conv mc (hc o (by simp)) (hc q (by simp)) m0 s1 f f' hf ro hro
    obtain ⟨u1, m2, p2⟩ := bnAct_node E hT hL θ₀ l.c1 l.bn1 l.bn1' mb1 ro c' m1 (by rw [hr0]; exact s3)
    obtain ⟨u2, m3, p3⟩ := C159_linear θ₀ l.c1 l.c2 l.lin l.lin' ml _ u1 m2
    obtain ⟨u3, m4, p4⟩ := bnAct_node E hT hL θ₀ l.c2 l.bn2 l.bn2' mb2 _ u2 m3 (by rw [hr0]; exact s4)
    simp only [hr0] at p2 p3 p4
    obtain ⟨o', m5, p5⟩ := C160_levels_partial hk E a hE hT hL hW θ₀ N hlr ls os q l.c2 mrest
      (fun p hp => hc p (List.mem_cons_of_mem _ hp)) _ u3 m4 (by rw [hr0]; exact s5) n out hnext G gs' gl G' (by rw [hr0]; exact h2)
    refine ⟨o', m5, ?_⟩
    have e3 : (bnActBack (l.bn2 θ₀) ((l.lin θ₀).apply (E.bnAct (l.bn1 θ₀) r)) G') = g3 := hg3.symm
    have e2 : (l.lin θ₀).grad l.c2 (E.bnAct (l.bn1 θ₀) r) g3.x = g2 := hg2.symm
    have e1 : bnActBack (l.bn1 θ₀) r g2.x = g1 := hg1.symm
    rw [p5, p4, e3, p3, e2, p2, e1, p1 g1.x gc fG h3, levelsPairing]
    ring

/-- All variables of the network have the given velocities at `θ₀`; the input has `ci` features per point. -/
structure SmallCurve.Moves {D : ℕ} (θ₀ : ℝ) (ci : ℕ) (N : SmallCurve D) : Prop where
  levels : levelsMove θ₀ N.last N.cl ci N.levels
  radius : 0 < N.lastConvRadius
  head : HeadMoves θ₀ N.cl N.c1 N.C N.head N.head'

/-- No activation function is evaluated at its kink and no probability is at a bound of the clipping, whatever the
schedule. -/
def SmallCurve.Smooth (E : NetEnv) (a : NonLin) (Ws : ℕ) (θ₀ e : ℝ) (m1 m2 : ∀ n, Fin n → ℕ → ℝ) (N : SmallCurve (k + 2))
    (clouds : List (CloudObj (Fin (k + 2) → ℝ))) (feats : List (List (ℕ → ℝ))) : Prop :=
  ∀ o os, clouds = o :: os → ∀ f0, (o.flattenFeatures feats).1 = .ok f0 →
    levelsSmooth E a Ws θ₀ N o f0 os N.levels ∧
    ∀ n out, gpuNetSmallLoop E Ws (N.at θ₀) o f0 os (N.at θ₀).levels (.ok ⟨n, out⟩) →
      OffKink N.cl (m1 n) ((N.head θ₀).bn1.apply true out) ∧
      OffKink N.c1 (m2 n) ((N.head θ₀).bn2.apply true ((N.head θ₀).dense1.apply
        (maskMul (m1 n) (fun i ch => kerasLrelu ((N.head θ₀).bn1.apply true out i ch))))) ∧
      ∀ b, OffClip N.C e ((N.head θ₀).runSmall E out b)

/-- Gradients times velocities of all variables of the network. -/
noncomputable def SmallCurve.pairing {D : ℕ} (θ₀ : ℝ) (ci : ℕ) (N : SmallCurve D) (g : SmallGrads) : ℝ :=
  levelsPairing θ₀ N.last N.cl ci N.levels g.levels g.last + headPairing N.cl N.c1 N.C g.head N.head'

/-- **C160**: the variables of the small network move along any curve differentiable at `θ₀`.  For every training step at
`θ₀` and all runs of the network elsewhere, the loss is differentiable at `θ₀`, and its derivative is the sum of all
returned gradients times the velocities of the variables. -/
theorem C160_small_partial (hk : k ≤ 1) (E : NetEnv) (a : NonLin) (hE : E.act = a.fwd) (m1 m2 : ∀ n, Fin n → ℕ → ℝ)
    (hM : ∀ n, TrainEnvOk E (m1 n) (m2 n)) {Ws : ℕ} (hW : 0 < Ws) (θ₀ : ℝ) (N : SmallCurve (k + 2)) (ci : ℕ) (hN : N.Moves θ₀ ci)
    (e : ℝ) (he : 0 < e) (he' : e < 1 / 2) (clouds : List (CloudObj (Fin (k + 2) → ℝ))) (hc : ∀ p ∈ clouds, GpuCloud Ws p.c)
    (feats : List (List (ℕ → ℝ))) (labels : List ℕ) (hlab : ∀ l ∈ labels, l < N.C)
    (hs : N.Smooth E a Ws θ₀ e m1 m2 clouds feats) (loss : ℝ → ℝ)
    (hrun : ∀ θ, θ ≠ θ₀ → (N.at θ).GpuLoss E Ws N.C e clouds feats labels (loss θ)) (g : SmallGrads)
    (ht : (N.at θ₀).GpuTrainStep E a Ws (N.levels.map (fun l => (l.c1, l.c2))) N.cl N.c1 N.C e m1 m2 clouds feats labels (loss θ₀) g) :
    HasDerivAt loss (N.pairing θ₀ ci g) θ₀ := by
  match clouds, hc, hs, hrun, ht with
  | o :: os, hc, hs, hrun, ht =>
    unfold NetSmall.GpuTrainStep at ht
    dsimp only at ht
    cases hf0 : (o.flattenFeatures feats).1 with
    | error er => rw [hf0] at ht; exact ht.elim
    | ok f0 =>
      rw [hf0] at ht
      obtain ⟨n, out₀, lab, gs, gl, fG, hg, rfl, hl0, hgh, htr, rfl⟩ := ht
      obtain ⟨s1, s2⟩ := hs o os rfl f0 hf0
      obtain ⟨s3, s4, s5⟩ := s2 n out₀ (gpuSmallTrain_forward _ _ _ _ _ _ _ _ _ _ _ _ _ _ _ _ htr)
      have hall : ∀ θ, ∃ out : Fin n → ℕ → ℝ, (θ = θ₀ → out = out₀) ∧
          (θ ≠ θ₀ → gpuNetSmallLoop E Ws (N.at θ) o f0 os (N.levels.map (fun l => l.at θ)) (.ok ⟨n, out⟩)) ∧
          loss θ = trainLoss N.C e lab ((N.head θ).runSmall E out) := by
        intro θ
        by_cases hθ : θ = θ₀
        · subst hθ
          exact ⟨out₀, fun _ => rfl, fun h => absurd rfl h, hl0⟩
        · obtain ⟨logits, q1, q2, q3⟩ := hrun θ hθ
          unfold NetSmall.GpuLogits at q1
          dsimp only at q1
          rw [hf0] at q1
          obtain ⟨r, q4, q5⟩ := q1
          match r, q4, q5 with
          | .ok ⟨n', out⟩, q4, q5 =>
            have q6 := Except.ok.inj q5
            have hn : n = n' := by
              rw [q6, List.length_ofFn, List.length_ofFn] at q2
              exact q2
            subst hn
            refine ⟨out, fun h => absurd h hθ, fun _ => q4, ?_⟩
            rw [q3, q6]
            rfl
      choose out hout₀ hloop hloss using hall
      have h0 : out θ₀ = out₀ := hout₀ θ₀ rfl
      subst h0
      obtain ⟨o', m, p⟩ := C160_levels_partial hk E a hE (hM n).training (hM n).lrelu hW θ₀ N hN.radius N.levels os o ci hN.levels hc
        (fun _ => f0) (fun _ _ => 0) (fun _ _ _ => hasDerivAt_const _ _) s1 n out hloop hg.bn1.x gs gl fG htr
      have hlab' : ∀ b, lab b < N.C := fun b => hlab _ (by rw [List.mem_ofFn]; exact ⟨b, rfl⟩)
      have hd := (C159_head_partial E θ₀ N.cl N.c1 N.C e he he' N.head N.head' hN.head (m1 n) (m2 n) (hM n) lab hlab' out o' m s3 s4).1
        s5 hg hgh
      rw [p] at hd
      have e1 : loss = fun θ => trainLoss N.C e lab ((N.head θ).runSmall E (out θ)) := funext hloss
      rw [e1]
      refine hd.congr_deriv ?_
      unfold SmallCurve.pairing
      simp only [matPairing, mul_zero, Finset.sum_const_zero]
      ring

/-! ### Runs -/

/-- Every run of the levels can be the forward pass of a training step, for every gradient. -/
theorem gpuSmallTrain_runs (E : NetEnv) (a : NonLin) {Ws : ℕ} (hW : 0 < Ws) (N : NetSmall (k + 2)) (hlr : 0 < N.lastConvRadius) (cl : ℕ)
    (ls : List (LevelSmall (k + 2))) : ∀ (_ : ∀ l ∈ ls, 0 < l.convRadius) (cs : List (ℕ × ℕ)) (_ : cs.length = ls.length)
      (os : List (CloudObj (Fin (k + 2) → ℝ))) (o : CloudObj (Fin (k + 2) → ℝ)) (_ : ∀ p ∈ o :: os, GpuCloud Ws p.c)
      (f : Fin o.c.n → ℕ → ℝ) (n : ℕ) (out : Fin n → ℕ → ℝ) (_ : gpuNetSmallLoop E Ws N o f os ls (.ok ⟨n, out⟩))
      (G : Fin n → ℕ → ℝ), ∃ gs gl fG, gpuSmallTrain E a Ws N cl o f os ls cs n out G gs gl fG := by
  induction ls with
  | nil =>
    intro _ cs hcs os o hc f n out h G
    obtain rfl : cs = [] := List.eq_nil_of_length_eq_zero hcs
    match os, hc, h with
    | [], hc, h => unfold gpuNetSmallLoop at h; cases h
    | _ :: _ :: _, hc, h => unfold gpuNetSmallLoop at h; cases h
    | [o'], hc, h =>
      unfold gpuNetSmallLoop at h
      obtain ⟨r, h1, h2⟩ := h
      match r, h1, h2 with
      | .ok r, h1, h2 =>
        cases h2
        obtain ⟨gl, fG, h4⟩ := NetConv.gpuTrain_runs a hW E.eps N.last cl (hc o (by simp)) (hc o' (by simp)) hlr f
          (gatherBack o'.c.sortedIndicesBatch G)
        refine ⟨[], gl, fG, ?_⟩
        unfold gpuSmallTrain
        exact ⟨r, G, h1, rfl, h4, rfl⟩
  | cons l ls ih =>
    intro hl cs hcs os o hc f n out h G
    match cs, hcs, os, hc, h with
    | c :: cs, hcs, [], hc, h => unfold gpuNetSmallLoop at h; cases h
    | c :: cs, hcs, o' :: os, hc, h =>
      obtain ⟨r, h1, h2⟩ := (gpuNetSmallLoop_cons ..).mp h
      match r, h1, h2 with
      | .ok r, h1, h2 =>
        obtain ⟨gs', gl, G', h3⟩ := ih (fun l' hx => hl l' (by simp [hx])) cs (by simpa using hcs) os o'
          (fun p hp => hc p (List.mem_cons_of_mem _ hp)) _ n out h2 G
        obtain ⟨gc, fG, h4⟩ := NetConv.gpuTrain_runs a hW E.eps l.conv c.1 (hc o (by simp)) (hc o' (by simp)) (hl l (by simp)) f
          (bnActBack l.bn1 r (l.lin.grad c.2 (E.bnAct l.bn1 r) (bnActBack l.bn2 (l.lin.apply (E.bnAct l.bn1 r)) G').x).x).x
        exact ⟨_, gl, fG, (gpuSmallTrain_cons ..).mpr ⟨r, G', gc, gs', _, _, _, h1, h3, rfl, rfl, rfl, h4, rfl⟩⟩

/-- **C160, runs exist**: every run of the network in which all layers return can be the forward pass of a training step. -/
theorem C160_runs (E : NetEnv) (a : NonLin) (m1 m2 : ∀ n, Fin n → ℕ → ℝ) {Ws : ℕ} (hW : 0 < Ws) (N : NetSmall (k + 2))
    (hlr : 0 < N.lastConvRadius) (hl : ∀ l ∈ N.levels, 0 < l.convRadius) (cs : List (ℕ × ℕ)) (hcs : cs.length = N.levels.length)
    (cl c1 C : ℕ) (e : ℝ) (clouds : List (CloudObj (Fin (k + 2) → ℝ))) (hc : ∀ p ∈ clouds, GpuCloud Ws p.c)
    (feats : List (List (ℕ → ℝ))) (labels : List ℕ) (loss : ℝ) (h : N.GpuLoss E Ws C e clouds feats labels loss) :
    ∃ g, N.GpuTrainStep E a Ws cs cl c1 C e m1 m2 clouds feats labels loss g := by
  obtain ⟨logits, q1, q2, q3⟩ := h
  match clouds, hc, q1 with
  | o :: os, hc, q1 =>
    unfold NetSmall.GpuLogits at q1
    dsimp only at q1
    unfold NetSmall.GpuTrainStep
    dsimp only
    cases hf0 : (o.flattenFeatures feats).1 with
    | error er => rw [hf0] at q1; cases q1
    | ok f0 =>
      rw [hf0] at q1
      obtain ⟨r, q4, q5⟩ := q1
      match r, q4, q5 with
      | .ok ⟨n, out⟩, q4, q5 =>
        have q6 := Except.ok.inj q5
        have hn : labels.length = n := by rw [q2, q6, List.length_ofFn]
        subst hn
        obtain ⟨gs, gl, fG, h5⟩ := gpuSmallTrain_runs E a hW N hlr cl N.levels hl cs hcs os o hc f0 _ out q4
          (N.head.backSmall c1 C (m1 _) (m2 _) out (trainLossGrad C e (fun i => labels.get i) (N.head.runSmall E out))).bn1.x
        have hlb : labels = List.ofFn (fun i : Fin labels.length => labels.get i) := (List.ofFn_get labels).symm
        refine ⟨_, _, out, fun i => labels.get i, gs, gl, fG, _, hlb, ?_, rfl, h5, rfl⟩
        rw [q3, q6]
        unfold trainLoss
        rw [← hlb]
  | [], hc, q1 => cases q1

end

/-! ### The hypotheses can be met -/

/-- With a large `beta`, batch normalisation of at most 100 rows has no zeros. -/
theorem bn_large_ne (bn : BNorm) {n : ℕ} (hn : n ≤ 99) (f : Fin n → ℕ → ℝ) (ch : ℕ) (hg : bn.gamma ch = 1) (hb : bn.beta ch = 10)
    (he : 0 < bn.eps) (i : Fin n) : bn.apply true f i ch ≠ 0 := by
  have hn0 : (0 : ℝ) < n := Nat.cast_pos.mpr (lt_of_le_of_lt (Nat.zero_le _) i.isLt)
  have hn1 : (n : ℝ) ≤ 99 := by exact_mod_cast hn
  simp only [BNorm.apply, if_true, hg, hb, one_mul]
  obtain ⟨mu, hmu⟩ : ∃ mu, mu = (∑ j, f j ch) / (n : ℝ) := ⟨_, rfl⟩
  rw [← hmu]
  have hva : (f i ch - mu) ^ 2 ≤ ∑ j, (f j ch - mu) ^ 2 :=
    Finset.single_le_sum (f := fun j => (f j ch - mu) ^ 2) (fun j _ => sq_nonneg _) (Finset.mem_univ i)
  have hv0 : 0 < (∑ j, (f j ch - mu) ^ 2) / n + bn.eps := by positivity
  have hs := Real.sq_sqrt hv0.le
  have hsp := Real.sqrt_pos.mpr hv0
  obtain ⟨q, hq⟩ : ∃ q, q = Real.sqrt ((∑ j, (f j ch - mu) ^ 2) / n + bn.eps) := ⟨_, rfl⟩
  rw [← hq] at hs hsp ⊢
  have h1 : (f i ch - mu) ^ 2 ≤ 99 * q ^ 2 := by
    have h2 : ∑ j, (f j ch - mu) ^ 2 = n * ((∑ j, (f j ch - mu) ^ 2) / n) := by field_simp
    have h3 : 0 ≤ (∑ j, (f j ch - mu) ^ 2) / n := by positivity
    rw [hs]
    nlinarith
  intro h0
  have h4 : (f i ch - mu) / q = -10 := by linarith
  rw [div_eq_iff hsp.ne'] at h4
  rw [h4] at h1
  nlinarith

/-- Three points of two shapes, and two points. -/
noncomputable def exO3 : CloudObj (Fin 2 → ℝ) := ⟨⟨3, ![![0, 0], ![1 / 4, 0], ![2, 0]], ![0, 0, 1], 2⟩, some ([2], [2, 1]), some [2], none, none⟩
noncomputable def exO2 : CloudObj (Fin 2 → ℝ) := ⟨⟨2, ![![0, 0], ![2, 0]], ![0, 1], 2⟩, some ([2], [1, 1]), some [2], none, none⟩

noncomputable def exBn (θ : ℝ) : BNorm := ⟨fun _ => 1, fun _ => 10, fun _ => 0, fun _ => 0, 1⟩
noncomputable def exBn' : BNorm := ⟨fun _ => 0, fun _ => 0, fun _ => 0, fun _ => 0, 1⟩

/-- A Monte Carlo convolution with one channel; weights of the kernel network and of the output move. -/
noncomputable def exConvCurve : ConvCurve 2 :=
  .mc 1 1 1 [⟨8, fun θ _ _ _ => 1 + θ, fun θ _ _ => θ, fun _ _ _ => 1, fun _ _ => 1⟩] (fun θ _ _ _ => 1 + 2 * θ) (fun _ _ _ => 2)

noncomputable def exSmallCurve : SmallCurve 2 :=
  ⟨[⟨exConvCurve, exBn, exBn', fun θ => ⟨1, fun _ _ => 1 + θ, fun _ => θ⟩, ⟨1, fun _ _ => 1, fun _ => 1⟩, exBn, exBn', 1, 1, 1, 1⟩],
    exConvCurve, 1, 1,
    fun θ => ⟨exBn θ, ⟨1, fun _ _ => 1 + θ, fun _ => θ⟩, exBn θ, ⟨1, fun _ o => if o = 0 then θ else 0, fun _ => 0⟩⟩,
    ⟨exBn', ⟨1, fun _ _ => 1, fun _ => 1⟩, exBn', ⟨1, fun _ o => if o = 0 then 1 else 0, fun _ => 0⟩⟩, 1, 1, 2⟩

noncomputable def exTrainEnv : NetEnv :=
  ⟨cuGauss, NonLin.elu.fwd, kerasLrelu, 0, .gpu, 1 / 10 ^ 8, true, fun n f => maskMul (fun _ _ => 2) f, fun n f => maskMul (fun _ _ => 2) f⟩

theorem exConvCurve_moves : exConvCurve.Moves 0 1 1 := by
  have hid : HasDerivAt (fun θ : ℝ => θ) 1 0 := hasDerivAt_id 0
  refine ⟨rfl, rfl, by decide, by decide, by simp, rfl, rfl, ⟨fun _ _ _ _ _ _ => hid.const_add 1, fun _ _ _ _ => hid, trivial⟩,
    fun _ _ _ _ _ _ => ?_⟩
  have := (hid.const_mul 2).const_add 1
  rwa [mul_one] at this

theorem exBn_moves (c : ℕ) : BnMoves 0 c exBn exBn' :=
  ⟨fun _ => rfl, one_pos, fun _ _ => hasDerivAt_const _ _, fun _ _ => hasDerivAt_const _ _⟩

theorem exSmallCurve_moves : exSmallCurve.Moves 0 1 := by
  have hid : HasDerivAt (fun θ : ℝ => θ) 1 0 := hasDerivAt_id 0
  refine ⟨⟨one_pos, exConvCurve_moves, exBn_moves _, ⟨fun _ => rfl, fun _ _ _ _ => hid.const_add 1, fun _ _ => hid⟩, exBn_moves _,
    exConvCurve_moves⟩, one_pos, exBn_moves _, ⟨fun _ => rfl, fun _ _ _ _ => hid.const_add 1, fun _ _ => hid⟩, exBn_moves _,
    fun _ => rfl, fun a _ o _ => ?_, fun _ _ => hasDerivAt_const _ _⟩
  by_cases ho : o = 0
  · simp only [exSmallCurve, ho, if_true]
    exact hid
  · simp only [exSmallCurve, ho, if_false]
    exact hasDerivAt_const _ _

theorem exConvCurve_smooth (cin cout : Cloud (Fin 2 → ℝ)) : exConvCurve.Smooth (k := 0) .elu 0 cin cout 1 :=
  fun p c _ _ => ⟨fun _ _ _ _ _ => Or.inl rfl, trivial⟩

theorem exClouds : ∀ p ∈ [exO3, exO2, exO2], GpuCloud 1 p.c := by
  have h2 : GpuCloud 1 exO2.c := ⟨by decide, by simp [exO2], by simp [exO2]⟩
  have h3 : GpuCloud 1 exO3.c := ⟨by decide, by simp [exO3], by simp [exO3]⟩
  intro p hp
  simp only [List.mem_cons, List.not_mem_nil, or_false] at hp
  rcases hp with rfl | rfl | rfl
  exacts [h3, h2, h2]

theorem exMc_runs (θ : ℝ) {cin cout : Cloud (Fin 2 → ℝ)} (h1 : GpuCloud 1 cin) (h2 : GpuCloud 1 cout) (f : Fin cin.n → ℕ → ℝ) :
    ∃ r, (exConvCurve.at θ).GpuCall (k := 0) exTrainEnv 1 cin cout 1 f (.ok r) := by
  obtain ⟨out, h⟩ := C108_mcconv_runs exTrainEnv.act 1 exTrainEnv.eps ⟨1, 1, 1, [⟨8, fun _ _ _ => 1 + θ, fun _ _ => θ⟩], fun _ _ _ => 1 + 2 * θ⟩
    cin cout 1 (1 / 5) one_pos one_pos h1.pos h2.pos h1.one h2.one f
  exact ⟨out, out, h, rfl⟩

theorem exLoss_runs (θ : ℝ) : ∃ loss, (exSmallCurve.at θ).GpuLoss (k := 0) exTrainEnv 1 2 (1 / 10 ^ 7) [exO3, exO2, exO2]
    [[fun _ => 1, fun _ => 2], [fun _ => 3, fun _ => 0]] [0, 1] loss := by
  have h2 := exClouds exO2 (by simp)
  have h3 := exClouds exO3 (by simp)
  obtain ⟨f0, e0⟩ : ∃ f0, (exO3.flattenFeatures [[fun _ => (1 : ℝ), fun _ => 2], [fun _ => 3, fun _ => 0]]).1 = .ok (f0 : _ → ℕ → ℝ) := by
    simp [CloudObj.flattenFeatures, CloudObj.getSizes, flattenRows, exO3]
  obtain ⟨r, hr⟩ := exMc_runs θ h3 h2 f0
  obtain ⟨r', hr'⟩ := exMc_runs θ h2 h2 (exTrainEnv.bnAct (exBn θ) ((⟨1, fun _ _ => 1 + θ, fun _ => θ⟩ : Lin).apply
    (exTrainEnv.bnAct (exBn θ) r)))
  refine ⟨_, List.ofFn ((exSmallCurve.at θ).head.runSmall exTrainEnv (r' ∘ exO2.c.sortedIndicesBatch)), ?_, ?_, rfl⟩
  · unfold NetSmall.GpuLogits
    dsimp only
    rw [e0]
    exact ⟨.ok ⟨2, r' ∘ exO2.c.sortedIndicesBatch⟩, ⟨.ok r, hr, .ok r', hr', rfl⟩, rfl⟩
  · rw [List.length_ofFn]
    rfl

theorem exSmallCurve_smooth : exSmallCurve.Smooth (k := 0) exTrainEnv .elu 1 0 (1 / 10 ^ 7) (fun _ _ _ => 2) (fun _ _ _ => 2)
    [exO3, exO2, exO2] [[fun _ => 1, fun _ => 2], [fun _ => 3, fun _ => 0]] := by
  intro o os e f0 hf
  obtain ⟨rfl, rfl⟩ := List.cons.inj e
  refine ⟨⟨exConvCurve_smooth _ _, fun r hr => ⟨fun i ch _ => ?_, fun i ch _ => ?_, exConvCurve_smooth _ _⟩⟩, fun n out h => ?_⟩
  · exact bn_large_ne (exBn 0) (n := 2) (by norm_num) r ch rfl rfl one_pos i
  · exact bn_large_ne (exBn 0) (n := 2) (by norm_num) _ ch rfl rfl one_pos i
  · obtain ⟨r, h1, h⟩ := h
    match r, h1, h with
    | .ok r, h1, h =>
      obtain ⟨r', h2, h⟩ := h
      match r', h2, h with
      | .ok r', h2, h =>
        cases h
        refine ⟨fun i ch _ => Or.inr ?_, fun i ch _ => Or.inr ?_, fun b j hj => ?_⟩
        · exact bn_large_ne (exBn 0) (n := 2) (by norm_num) _ ch rfl rfl one_pos i
        · exact bn_large_ne (exBn 0) (n := 2) (by norm_num) _ ch rfl rfl one_pos i
        · have hsm : ∀ x : ℕ → ℝ, (∀ j < 2, x j = 0) → softmaxRow 2 x j = 1 / 2 := by
            intro x hx
            unfold softmaxRow
            rw [Finset.sum_range_succ, Finset.sum_range_one, hx 0 (by omega), hx 1 (by omega), hx j hj, Real.exp_zero]
            norm_num
          change softmaxRow 2 _ j ≠ _ ∧ softmaxRow 2 _ j ≠ _
          rw [hsm]
          · constructor <;> norm_num
          · intro j hj
            simp only [NetHead.runSmall, Lin.apply, conv1x1, exSmallCurve, Finset.sum_range_one]
            split <;> simp

example : ∃ loss g, (∀ θ, θ ≠ 0 → (exSmallCurve.at θ).GpuLoss (k := 0) exTrainEnv 1 2 (1 / 10 ^ 7) [exO3, exO2, exO2]
      [[fun _ => 1, fun _ => 2], [fun _ => 3, fun _ => 0]] [0, 1] (loss θ)) ∧
    (exSmallCurve.at 0).GpuTrainStep (k := 0) exTrainEnv .elu 1 [(1, 1)] 1 1 2 (1 / 10 ^ 7) (fun _ _ _ => 2) (fun _ _ _ => 2)
      [exO3, exO2, exO2] [[fun _ => 1, fun _ => 2], [fun _ => 3, fun _ => 0]] [0, 1] (loss 0) g ∧
    HasDerivAt loss (exSmallCurve.pairing 0 1 g) 0 := by
  choose loss hl using exLoss_runs
  obtain ⟨g, hg⟩ := C160_runs (k := 0) exTrainEnv .elu (fun _ _ _ => 2) (fun _ _ _ => 2) one_pos (exSmallCurve.at 0) one_pos
    (by simp [exSmallCurve, SmallCurve.at, LevelCurve.at]) [(1, 1)] rfl 1 1 2 _ _ exClouds _ _ _ (hl 0)
  exact ⟨loss, g, fun θ _ => hl θ, hg, C160_small_partial (k := 0) (by omega) exTrainEnv .elu rfl _ _ (fun n => ⟨rfl, rfl, rfl, rfl⟩) one_pos
    0 exSmallCurve 1 exSmallCurve_moves _ (by norm_num) (by norm_num) _ exClouds _ _
    (by simp [exSmallCurve]) exSmallCurve_smooth loss (fun θ _ => hl θ) g hg⟩

end PC
