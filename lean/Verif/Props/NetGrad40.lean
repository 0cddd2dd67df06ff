import Verif.NetGrad40
import Verif.Props.NetGrad
import Verif.Props.PoolGrad

/-!
# Properties of the gradients of the network of modelnet40.py (C161)
-/

set_option linter.unusedVariables false
set_option linter.unusedSectionVars false

namespace PC

open Filter Topology

section
variable {k : ℕ}

/-! ### The skip connection -/

theorem rowsOf_val {m : ℕ} (G : Fin m → ℕ → ℝ) (c : Fin m) (ch : ℕ) : rowsOf G c.val ch = G c ch := by
  unfold rowsOf
  rw [dif_pos c.isLt]

/-- The largest feature among the neighbours of a centre is attained once. -/
def MaxOnce (cin cout : Cloud (Fin (k + 2) → ℝ)) (radius : ℝ) (ci : ℕ) (f : Fin cin.n → ℕ → ℝ) : Prop :=
  ∀ ch < ci, ∀ c : Fin cout.n, ∀ p ∈ nbrs cin cout radius c, ∀ q ∈ nbrs cin cout radius c,
    (∀ l ∈ nbrs cin cout radius c, f l ch ≤ f p ch) → (∀ l ∈ nbrs cin cout radius c, f l ch ≤ f q ch) → p = q

/-- Maximum pooling on the GPU: outputs and gradients for one list of pairs. -/
theorem gpuMax_deriv {Ws : ℕ} (hW : 0 < Ws) (θ₀ low eps : ℝ) (ci : ℕ) {cin cout : Cloud (Fin (k + 2) → ℝ)}
    (h2 : GpuCloud Ws cout) {radius : ℝ} (hr : 0 < radius)
    (f : ℝ → Fin cin.n → ℕ → ℝ) (f' : Fin cin.n → ℕ → ℝ) (hf : MatMoves θ₀ ci f f') (hs : MaxOnce cin cout radius ci (f θ₀))
    (s : ℝ → Fin cout.n → ℕ → Option ℝ) (hrun : ∀ θ, GpuPool Ws .max eps cin cout radius (f θ) (s θ)) (G : Fin cout.n → ℕ → ℝ)
    (nb : Pairs cin.n cout.n) (hnb : GpuFind Ws (⟨cin, fun _ => radius, eps⟩ : Grid (k + 2) ℝ) cout (fun _ => radius) nb) :
    HasDerivAt (fun θ => matPairing ci G (fun i ch => (s θ i ch).getD low))
      (matPairing ci (localPoolGrad .max (gpuIds (⟨cin, fun _ => radius, eps⟩ : Grid (k + 2) ℝ) nb) (f θ₀) (rowsOf G)) f') θ₀ := by
  obtain ⟨_, _, h3⟩ := gpuIds_spec Ws cin cout radius eps hr hW h2.pos h2.one nb hnb
  obtain ⟨pairs, hp⟩ : ∃ pairs, pairs = gpuIds (⟨cin, fun _ => radius, eps⟩ : Grid (k + 2) ℝ) nb := ⟨_, rfl⟩
  have h3' : ∀ c : Fin cout.n, Finset.univ.filter (fun p : Fin cin.n => (p, c) ∈ pairs) = nbrs cin cout radius c := by
    rw [hp]; exact h3
  have e : ∀ θ c ch, s θ c ch = PoolOp.max.apply (fun j : Fin pairs.length => f θ (pairs.get j).1 ch)
      (fun j => (pairs.get j).2.val) c.val := by
    intro θ c ch
    obtain ⟨nb', hnb', hs'⟩ := hrun θ
    obtain ⟨_, _, h4⟩ := gpuIds_spec Ws cin cout radius eps hr hW h2.pos h2.one nb' hnb'
    have u1 := pairs_max (gpuIds (⟨cin, fun _ => radius, eps⟩ : Grid (k + 2) ℝ) nb') (fun p => f θ p ch) c
    have u2 := pairs_max pairs (fun p => f θ p ch) c
    rw [h4 c] at u1
    rw [h3' c] at u2
    rw [hs']
    exact u1.unique u2
  have e2 : (fun θ => matPairing ci G (fun i ch => (s θ i ch).getD low)) =
      fun θ => ∑ ch ∈ Finset.range ci, poolLoss .max cout.n low (fun j : Fin pairs.length => (pairs.get j).2.val)
        (fun c => rowsOf G c ch) (fun j => f θ (pairs.get j).1 ch) := by
    funext θ
    unfold matPairing
    rw [Finset.sum_comm]
    refine Finset.sum_congr rfl fun ch _ => ?_
    unfold poolLoss
    rw [← Fin.sum_univ_eq_sum_range (fun s => rowsOf G s ch * (PoolOp.max.apply (fun j : Fin pairs.length => f θ (pairs.get j).1 ch)
      (fun j => (pairs.get j).2.val) s).getD low) cout.n]
    refine Finset.sum_congr rfl fun c _ => ?_
    dsimp only
    rw [e, rowsOf_val]
  rw [e2, ← hp]
  unfold matPairing
  rw [Finset.sum_comm]
  refine HasDerivAt.fun_sum fun ch hch => ?_
  have hch := Finset.mem_range.mp hch
  rw [localPoolGrad_pairing .max pairs (f θ₀) (rowsOf G) (fun p => f' p ch) ch]
  refine pool_deriv .max cout.n low _ (fun j => (pairs.get j).2.isLt) (fun c => rowsOf G c ch) (fun θ j => f θ (pairs.get j).1 ch)
    (fun j => f' (pairs.get j).1 ch) θ₀ (fun j => hf _ ch hch) fun _ => ?_
  intro i j hij _ hi hj
  have hij' : (pairs.get i).2 = (pairs.get j).2 := Fin.ext hij
  have hmem : ∀ l : Fin pairs.length, (pairs.get l).1 ∈ nbrs cin cout radius (pairs.get l).2 := by
    intro l
    rw [← h3']
    simp only [Finset.mem_filter, Finset.mem_univ, true_and]
    exact List.get_mem pairs l
  have hall : ∀ p ∈ nbrs cin cout radius (pairs.get i).2, ∃ l : Fin pairs.length, pairs.get l = (p, (pairs.get i).2) := by
    intro p hp
    rw [← h3'] at hp
    simp only [Finset.mem_filter, Finset.mem_univ, true_and] at hp
    exact List.mem_iff_get.mp hp
  have hp := hs ch hch (pairs.get i).2 (pairs.get i).1 (hmem i) (pairs.get j).1 (by rw [hij']; exact hmem j)
    (fun p hp => by
      obtain ⟨l, hl⟩ := hall p hp
      have := hi l (by dsimp only; rw [hl])
      dsimp only at this
      rwa [hl] at this)
    (fun p hp => by
      obtain ⟨l, hl⟩ := hall p hp
      have := hj l (by dsimp only; rw [hl])
      dsimp only at this
      rwa [hl] at this)
  dsimp only
  rw [hp]

/-- The first skip layer. -/
theorem skip_node (E : NetEnv) {Ws : ℕ} (hW : 0 < Ws) (θ₀ : ℝ) (ci : ℕ) (b : ℝ → NetBlock (k + 2))
    (hb : ∀ θ, (b θ).strided = (b θ₀).strided) {cin cout : Cloud (Fin (k + 2) → ℝ)} (h2 : GpuCloud Ws cout)
    {radius : ℝ} (hr : (b θ₀).strided = true → 0 < radius) (f : ℝ → Fin cin.n → ℕ → ℝ) (f' : Fin cin.n → ℕ → ℝ)
    (hf : MatMoves θ₀ ci f f') (hs : (b θ₀).strided = true → MaxOnce cin cout radius ci (f θ₀))
    (s : ℝ → Fin cout.n → ℕ → ℝ) (hrun : ∀ θ, (b θ).GpuPool E Ws cin cout radius (f θ) (.ok (s θ))) :
    ∃ s', MatMoves θ₀ ci s s' ∧ ∀ G fS, (b θ₀).GpuPoolTrain Ws E.eps cin cout radius (f θ₀) G fS →
      matPairing ci G s' = matPairing ci fS f' := by
  unfold NetBlock.GpuPool at hrun
  unfold NetBlock.GpuPoolTrain
  simp only [hb] at hrun
  by_cases hst : (b θ₀).strided = true
  · simp only [hst, if_true] at hrun ⊢
    choose o ho he using hrun
    have hse : s = fun θ i ch => (o θ i ch).getD E.lowest := funext fun θ => Except.ok.inj (he θ)
    have hd := fun G nb hnb => gpuMax_deriv hW θ₀ E.lowest E.eps ci h2 (hr hst) f f' hf (hs hst) o ho G nb hnb
    rw [hse]
    obtain ⟨s', m, p⟩ := matMoves_of_pairings θ₀ ci (fun θ i ch => (o θ i ch).getD E.lowest) fun G => by
      obtain ⟨nb, hnb⟩ := gpuFind_exists Ws (⟨cin, fun _ => radius, E.eps⟩ : Grid (k + 2) ℝ) cout (fun _ => radius)
        (fun _ => hr hst) (fun _ => le_rfl) hW h2.pos h2.one
      exact ⟨_, hd G nb hnb⟩
    refine ⟨s', m, ?_⟩
    rintro G fS ⟨nb, hnb, rfl⟩
    exact p G _ (hd G nb hnb)
  · simp only [hst, if_false, Bool.false_eq_true] at hrun ⊢
    have hn : cout.n = cin.n := by
      by_contra h
      have := hrun θ₀
      rw [dif_neg h] at this
      cases this
    have hse : s = fun θ i => f θ (Fin.cast hn i) := by
      funext θ
      have := hrun θ
      rw [dif_pos hn] at this
      exact Except.ok.inj this
    rw [hse]
    refine ⟨fun i => f' (Fin.cast hn i), fun i ch hch => hf _ ch hch, ?_⟩
    rintro G fS ⟨h, rfl⟩
    unfold matPairing
    exact (Fintype.sum_equiv (finCongr h) _ _ fun i => rfl).symm

/-! ### Blocks -/

/-- A block whose variables move: `cr` channels inside, `co` at the end. -/
structure BlockCurve (D : ℕ) where
  bn0 : ℝ → BNorm
  bn0' : BNorm
  down : ℝ → Lin
  down' : Lin
  bn1 : ℝ → BNorm
  bn1' : BNorm
  conv : ConvCurve D
  bn2 : ℝ → BNorm
  bn2' : BNorm
  up : ℝ → Lin
  up' : Lin
  strided : Bool
  proj : Option (((ℝ → BNorm) × BNorm) × ((ℝ → Lin) × Lin))
  cr : ℕ
  co : ℕ

/-- The block at `θ`. -/
def BlockCurve.at {D : ℕ} (b : BlockCurve D) (θ : ℝ) : NetBlock D :=
  ⟨b.bn0 θ, b.down θ, b.bn1 θ, b.conv.at θ, b.bn2 θ, b.up θ, b.strided, b.proj.map (fun p => (p.1.1 θ, p.2.1 θ))⟩

/-- The variables have the given velocities at `θ₀`, and the channels fit together; `ci` input channels. -/
structure BlockCurve.Moves {D : ℕ} (θ₀ : ℝ) (ci : ℕ) (b : BlockCurve D) : Prop where
  bn0 : BnMoves θ₀ ci b.bn0 b.bn0'
  down : LinMoves θ₀ ci b.cr b.down b.down'
  bn1 : BnMoves θ₀ b.cr b.bn1 b.bn1'
  conv : b.conv.Moves θ₀ b.cr b.cr
  bn2 : BnMoves θ₀ b.cr b.bn2 b.bn2'
  up : LinMoves θ₀ b.cr b.co b.up b.up'
  skip : b.proj = none → ci = b.co
  proj : ∀ p, b.proj = some p → BnMoves θ₀ ci p.1.1 p.1.2 ∧ LinMoves θ₀ ci b.co p.2.1 p.2.2

/-- No activation function of the block is evaluated at its kink, and maxima are attained once. -/
structure BlockCurve.Smooth (E : NetEnv) (a : NonLin) (Ws : ℕ) (θ₀ : ℝ) (ci : ℕ) (b : BlockCurve (k + 2))
    (cin cout : Cloud (Fin (k + 2) → ℝ)) (convRadius radius : ℝ) (f : Fin cin.n → ℕ → ℝ) : Prop where
  bn0 : ∀ i, ∀ ch < ci, (b.bn0 θ₀).apply true f i ch ≠ 0
  bn1 : ∀ i, ∀ ch < b.cr, (b.bn1 θ₀).apply true ((b.down θ₀).apply (E.bnAct (b.bn0 θ₀) f)) i ch ≠ 0
  conv : b.conv.Smooth a θ₀ cin cout convRadius
  bn2 : ∀ r, (b.conv.at θ₀).GpuCall E Ws cin cout convRadius (E.bnAct (b.bn1 θ₀) ((b.down θ₀).apply (E.bnAct (b.bn0 θ₀) f))) (.ok r) →
    ∀ i, ∀ ch < b.cr, (b.bn2 θ₀).apply true r i ch ≠ 0
  pool : b.strided = true → MaxOnce cin cout radius ci f
  proj : ∀ p, b.proj = some p → ∀ s, (b.at θ₀).GpuPool E Ws cin cout radius f (.ok s) → ∀ i, ∀ ch < ci, (p.1.1 θ₀).apply true s i ch ≠ 0

/-- Gradients times velocities of the variables of the skip connection. -/
noncomputable def projPairing (ci co : ℕ) {m : ℕ} : Option (((ℝ → BNorm) × BNorm) × ((ℝ → Lin) × Lin)) →
    Option (BnGrads m × LinGrads m) → ℝ
  | some p, some q => bnPairing ci q.1 p.1.2 + linPairing ci co q.2 p.2.2
  | _, _ => 0

/-- Gradients times velocities of all variables of the block. -/
noncomputable def BlockCurve.pairing {D : ℕ} (θ₀ : ℝ) (ci : ℕ) (b : BlockCurve D) (g : BlockGrads) : ℝ :=
  bnPairing ci g.bn0 b.bn0' + linPairing ci b.cr g.down b.down' + bnPairing b.cr g.bn1 b.bn1' + b.conv.pairing θ₀ b.cr b.cr g.conv +
    bnPairing b.cr g.bn2 b.bn2' + linPairing b.cr b.co g.up b.up' + projPairing ci b.co b.proj g.proj

theorem matPairing_add_left (c : ℕ) {n : ℕ} (u v f : Fin n → ℕ → ℝ) :
    matPairing c (fun i ch => u i ch + v i ch) f = matPairing c u f + matPairing c v f := by
  unfold matPairing
  simp only [add_mul, Finset.sum_add_distrib]

/-- **C161, one block**: features and variables move.  For every training step at `θ₀` and all runs of the block elsewhere,
the output moves with velocities whose pairing with its gradient is the sum of all returned gradients times velocities. -/
theorem C161_block_partial (hk : k ≤ 1) (E : NetEnv) (a : NonLin) (hE : E.act = a.fwd) (hT : E.training = true)
    (hL : E.lrelu = kerasLrelu) {Ws : ℕ} (hW : 0 < Ws) (θ₀ : ℝ) (ci : ℕ) (b : BlockCurve (k + 2)) (hb : b.Moves θ₀ ci)
    {cin cout : Cloud (Fin (k + 2) → ℝ)} (h1 : GpuCloud Ws cin) (h2 : GpuCloud Ws cout) {convRadius radius : ℝ} (hcr : 0 < convRadius)
    (hr : b.strided = true → 0 < radius) (f : ℝ → Fin cin.n → ℕ → ℝ) (f' : Fin cin.n → ℕ → ℝ) (hf : MatMoves θ₀ ci f f')
    (hs : b.Smooth E a Ws θ₀ ci cin cout convRadius radius (f θ₀)) (out : ℝ → Fin cout.n → ℕ → ℝ)
    (hrun : ∀ θ, θ ≠ θ₀ → (b.at θ).GpuRun E Ws cin cout convRadius radius (f θ) (.ok (out θ)))
    (G : Fin cout.n → ℕ → ℝ) (g : BlockGrads) (fG : Fin cin.n → ℕ → ℝ)
    (ht : (b.at θ₀).GpuTrain E a Ws b.cr b.co cin cout convRadius radius (f θ₀) (out θ₀) G g fG) :
    ∃ o', MatMoves θ₀ b.co out o' ∧ matPairing b.co G o' = b.pairing θ₀ ci g + matPairing ci fG f' := by
  obtain ⟨r₀, s₀, sG, cG, fS, g0, g1, gd, gc, g2, gu, gp, hc₀, hp₀, ho₀, hgu, hg2, hgc, hg1, hgd, hg0, hskip, hpool, rfl, rfl⟩ := ht
  have hall : ∀ θ, ∃ r s, (θ = θ₀ → r = r₀ ∧ s = s₀) ∧
      (b.conv.at θ).GpuCall E Ws cin cout convRadius (E.bnAct (b.bn1 θ) ((b.down θ).apply (E.bnAct (b.bn0 θ) (f θ)))) (.ok r) ∧
      (b.at θ).GpuPool E Ws cin cout radius (f θ) (.ok s) ∧
      out θ = fun i ch => (b.up θ).apply (E.bnAct (b.bn2 θ) r) i ch + (match (b.at θ).proj with
        | none => s
        | some (bn, l) => l.apply (E.bnAct bn s)) i ch := by
    intro θ
    by_cases hθ : θ = θ₀
    · subst hθ
      exact ⟨r₀, s₀, fun _ => ⟨rfl, rfl⟩, hc₀, hp₀, ho₀⟩
    · obtain ⟨r, q1, q2⟩ := hrun θ hθ
      match r, q1, q2 with
      | .ok r, q1, q2 =>
        obtain ⟨s, q3, q4⟩ := q2
        match s, q3, q4 with
        | .ok s, q3, q4 => exact ⟨r, s, fun h => absurd h hθ, q1, q3, Except.ok.inj q4⟩
  choose r s h0 hcall hpl hout using hall
  obtain ⟨hr0, hs0⟩ := h0 θ₀ rfl
  -- residual branch
  obtain ⟨u0, m0, p0⟩ := bnAct_node E hT hL θ₀ ci b.bn0 b.bn0' hb.bn0 f f' hf hs.bn0
  obtain ⟨ud, md, pd⟩ := C159_linear θ₀ ci b.cr b.down b.down' hb.down _ u0 m0
  obtain ⟨u1, m1, p1⟩ := bnAct_node E hT hL θ₀ b.cr b.bn1 b.bn1' hb.bn1 _ ud md hs.bn1
  obtain ⟨uc, mc, pc⟩ := conv_node hk E a hE hW θ₀ b.cr b.cr b.conv hb.conv h1 h2 hcr hs.conv _ u1 m1 r hcall
  obtain ⟨u2, m2, p2⟩ := bnAct_node E hT hL θ₀ b.cr b.bn2 b.bn2' hb.bn2 r uc mc (by rw [hr0]; exact hs.bn2 r₀ hc₀)
  obtain ⟨uu, mu, pu⟩ := C159_linear θ₀ b.cr b.co b.up b.up' hb.up _ u2 m2
  rw [hr0] at p2 pu
  -- skip connection
  obtain ⟨us, ms, ps⟩ := skip_node E hW θ₀ ci (fun θ => b.at θ) (fun _ => rfl) h2 hr f f' hf hs.pool s hpl
  have hres : matPairing b.co G uu = bnPairing ci g0 b.bn0' + linPairing ci b.cr gd b.down' + bnPairing b.cr g1 b.bn1' +
      b.conv.pairing θ₀ b.cr b.cr gc + bnPairing b.cr g2 b.bn2' + linPairing b.cr b.co gu b.up' + matPairing ci g0.x f' := by
    have eu : (b.up θ₀).grad b.co (E.bnAct (b.bn2 θ₀) r₀) G = gu := hgu.symm
    have e2 : bnActBack (b.bn2 θ₀) r₀ gu.x = g2 := hg2.symm
    have e1 : bnActBack (b.bn1 θ₀) ((b.down θ₀).apply (E.bnAct (b.bn0 θ₀) (f θ₀))) cG = g1 := hg1.symm
    have ed : (b.down θ₀).grad b.cr (E.bnAct (b.bn0 θ₀) (f θ₀)) g1.x = gd := hgd.symm
    have e0 : bnActBack (b.bn0 θ₀) (f θ₀) gd.x = g0 := hg0.symm
    rw [pu, eu, p2, e2, pc g2.x gc cG hgc, p1, e1, pd, ed, p0, e0]
    ring
  obtain ⟨uo, mo, po⟩ : ∃ uo, MatMoves θ₀ b.co (fun θ => match (b.at θ).proj with
        | none => s θ
        | some (bn, l) => l.apply (E.bnAct bn (s θ))) uo ∧ matPairing b.co G uo = projPairing ci b.co b.proj gp + matPairing ci fS f' := by
    cases hpr : b.proj with
    | none =>
      have e : ∀ θ, (b.at θ).proj = none := fun θ => by simp [BlockCurve.at, hpr]
      rw [e] at hskip
      obtain ⟨rfl, rfl⟩ := hskip
      simp only [e]
      have hco := hb.skip hpr
      refine ⟨us, hco ▸ ms, ?_⟩
      rw [show projPairing ci b.co none none = (0 : ℝ) from rfl, zero_add, ← hco]
      exact ps _ _ hpool
    | some p =>
      have e : ∀ θ, (b.at θ).proj = some (p.1.1 θ, p.2.1 θ) := fun θ => by simp [BlockCurve.at, hpr]
      rw [e] at hskip
      obtain ⟨rfl, rfl⟩ := hskip
      simp only [e]
      obtain ⟨hm1, hm2⟩ := hb.proj p hpr
      obtain ⟨v1, n1, w1⟩ := bnAct_node E hT hL θ₀ ci p.1.1 p.1.2 hm1 s us ms (by rw [hs0]; exact hs.proj p hpr s₀ hp₀)
      obtain ⟨v2, n2, w2⟩ := C159_linear θ₀ ci b.co p.2.1 p.2.2 hm2 _ v1 n1
      rw [hs0] at w1 w2
      refine ⟨v2, n2, ?_⟩
      rw [w2, w1, ps _ _ hpool]
      unfold projPairing
      ring
  refine ⟨fun i ch => uu i ch + uo i ch, ?_, ?_⟩
  · have e : out = fun θ i ch => (b.up θ).apply (E.bnAct (b.bn2 θ) (r θ)) i ch + (match (b.at θ).proj with
        | none => s θ
        | some (bn, l) => l.apply (E.bnAct bn (s θ))) i ch := funext hout
    rw [e]
    exact fun i ch hch => (mu i ch hch).add (mo i ch hch)
  · rw [matPairing_add, matPairing_add_left, hres, po]
    unfold BlockCurve.pairing
    dsimp only
    ring

/-- The forward pass of a training step of a block is a run of it. -/
theorem NetBlock.GpuTrain.run {E : NetEnv} {a : NonLin} {Ws : ℕ} {b : NetBlock (k + 2)} {cr co : ℕ} {cin cout : Cloud (Fin (k + 2) → ℝ)}
    {convRadius radius : ℝ} {f : Fin cin.n → ℕ → ℝ} {out G : Fin cout.n → ℕ → ℝ} {g : BlockGrads} {fG : Fin cin.n → ℕ → ℝ}
    (h : b.GpuTrain E a Ws cr co cin cout convRadius radius f out G g fG) : b.GpuRun E Ws cin cout convRadius radius f (.ok out) := by
  obtain ⟨r, s, sG, cG, fS, g0, g1, gd, gc, g2, gu, gp, hc, hp, ho, _⟩ := h
  exact ⟨.ok r, hc, .ok s, hp, congrArg _ ho⟩

/-! ### The network -/

/-- A level with moving variables. -/
structure Level40Curve (D : ℕ) where
  strided : BlockCurve D
  block : BlockCurve D
  poolRadius : ℝ
  convRadius : ℝ

/-- The level at `θ`. -/
def Level40Curve.at {D : ℕ} (l : Level40Curve D) (θ : ℝ) : Level40 D := ⟨l.strided.at θ, l.block.at θ, l.poolRadius, l.convRadius⟩

/-- Numbers of channels of the blocks of a level. -/
def Level40Curve.chans {D : ℕ} (l : Level40Curve D) : (ℕ × ℕ) × (ℕ × ℕ) := ((l.strided.cr, l.strided.co), (l.block.cr, l.block.co))

/-- The network with moving variables: `c0` channels after the first convolution, `ce` after the last level, `c1` between
the dense layers, `C` classes. -/
structure Curve40 (D : ℕ) where
  init : ConvCurve D
  block0 : BlockCurve D
  poolRadius0 : ℝ
  convRadius0 : ℝ
  levels : List (Level40Curve D)
  head : ℝ → NetHead
  head' : NetHead
  c0 : ℕ
  ce : ℕ
  c1 : ℕ
  C : ℕ

/-- The network at `θ`. -/
def Curve40.at {D : ℕ} (N : Curve40 D) (θ : ℝ) : Net40 D :=
  ⟨N.init.at θ, N.block0.at θ, N.poolRadius0, N.convRadius0, N.levels.map (fun l => l.at θ), N.head θ⟩

/-- All variables of the levels have the given velocities, and channels fit together: `ci` before, `ce` after the levels. -/
def levels40Move {D : ℕ} (θ₀ : ℝ) (ce : ℕ) : ℕ → List (Level40Curve D) → Prop
  | ci, [] => ci = ce
  | ci, l :: ls => 0 < l.poolRadius ∧ 0 < l.convRadius ∧ l.strided.Moves θ₀ ci ∧ l.block.strided = false ∧
      l.block.Moves θ₀ l.strided.co ∧ levels40Move θ₀ ce l.block.co ls

/-- Gradients times velocities of the variables of the levels. -/
noncomputable def levels40Pairing {D : ℕ} (θ₀ : ℝ) : ℕ → List (Level40Curve D) → List (BlockGrads × BlockGrads) → ℝ
  | ci, l :: ls, g :: gs => l.strided.pairing θ₀ ci g.1 + l.block.pairing θ₀ l.strided.co g.2 + levels40Pairing θ₀ l.block.co ls gs
  | _, _, _ => 0

/-- No activation function of the levels is evaluated at its kink and maxima are attained once, whatever the schedule. -/
def levels40Smooth (E : NetEnv) (a : NonLin) (Ws : ℕ) (θ₀ : ℝ) : ℕ → (o : CloudObj (Fin (k + 2) → ℝ)) →
    (Fin o.c.n → ℕ → ℝ) → List (CloudObj (Fin (k + 2) → ℝ)) → List (Level40Curve (k + 2)) → Prop
  | ci, o, f, o' :: os, l :: ls => l.strided.Smooth E a Ws θ₀ ci o.c o'.c l.poolRadius l.poolRadius f ∧
      ∀ f1, (l.strided.at θ₀).GpuRun E Ws o.c o'.c l.poolRadius l.poolRadius f (.ok f1) →
        l.block.Smooth E a Ws θ₀ l.strided.co o'.c o'.c l.convRadius 0 f1 ∧
        ∀ f2, (l.block.at θ₀).GpuRun E Ws o'.c o'.c l.convRadius 0 f1 (.ok f2) → levels40Smooth E a Ws θ₀ l.block.co o' f2 os ls
  | _, _, _, _, _ => True

/-- The features returned by the levels belong to the last cloud. -/
theorem gpuNet40Loop_last (E : NetEnv) (Ws : ℕ) (ls : List (Level40 (k + 2))) : ∀ (os : List (CloudObj (Fin (k + 2) → ℝ)))
    (o : CloudObj (Fin (k + 2) → ℝ)) (f : Fin o.c.n → ℕ → ℝ) (oE : CloudObj (Fin (k + 2) → ℝ)) (fE : Fin oE.c.n → ℕ → ℝ),
    gpuNet40Loop E Ws o f os ls (.ok ⟨oE, fE⟩) → oE = (o :: os).getLast (by simp) := by
  induction ls with
  | nil =>
    intro os o f oE fE h
    match os, h with
    | [], h => unfold gpuNet40Loop at h; exact (Sigma.mk.inj (Except.ok.inj h)).1
    | _ :: _, h => unfold gpuNet40Loop at h; cases h
  | cons l ls ih =>
    intro os o f oE fE h
    match os, h with
    | [], h => unfold gpuNet40Loop at h; cases h
    | o' :: os, h =>
      unfold gpuNet40Loop at h
      obtain ⟨r1, h1, h⟩ := h
      match r1, h1, h with
      | .ok f1, h1, h =>
        obtain ⟨r2, h2, h⟩ := h
        match r2, h2, h with
        | .ok f2, h2, h =>
          exact (ih os o' f2 oE fE h).trans (List.getLast_cons (List.cons_ne_nil o' os)).symm

theorem gpu40Train_forward (E : NetEnv) (a : NonLin) (Ws : ℕ) (ls : List (Level40 (k + 2))) :
    ∀ (cs : List ((ℕ × ℕ) × (ℕ × ℕ))) (os : List (CloudObj (Fin (k + 2) → ℝ)))
      (o : CloudObj (Fin (k + 2) → ℝ)) (f : Fin o.c.n → ℕ → ℝ) (oE : CloudObj (Fin (k + 2) → ℝ)) (fE G : Fin oE.c.n → ℕ → ℝ)
      (gs : List (BlockGrads × BlockGrads)) (fG : Fin o.c.n → ℕ → ℝ),
      gpu40Train E a Ws o f os ls cs oE fE G gs fG → gpuNet40Loop E Ws o f os ls (.ok ⟨oE, fE⟩) := by
  induction ls with
  | nil =>
    intro cs os o f oE fE G gs fG h
    match os, cs, h with
    | [], [], h =>
      unfold gpu40Train at h
      unfold gpuNet40Loop
      cases h.1
      rfl
    | _ :: _, [], h => exact h.elim
    | [], _ :: _, h => exact h.elim
    | _ :: _, _ :: _, h => exact h.elim
  | cons l ls ih =>
    intro cs os o f oE fE G gs fG h
    match os, cs, h with
    | [], [], h => exact h.elim
    | _ :: _, [], h => exact h.elim
    | [], _ :: _, h => exact h.elim
    | o' :: os, c :: cs, h =>
      unfold gpu40Train at h
      obtain ⟨f1, f2, G1, G2, g1, g2, gs', h1, h2, h3, _⟩ := h
      unfold gpuNet40Loop
      exact ⟨.ok f1, h1.run, .ok f2, h2.run, ih cs os o' f2 oE fE G gs' G2 h3⟩

/-- **C161, the levels**: induction over the levels. -/
theorem C161_levels_partial (hk : k ≤ 1) (E : NetEnv) (a : NonLin) (hE : E.act = a.fwd) (hT : E.training = true)
    (hL : E.lrelu = kerasLrelu) {Ws : ℕ} (hW : 0 < Ws) (θ₀ : ℝ) (ce : ℕ) (ls : List (Level40Curve (k + 2))) :
    ∀ (os : List (CloudObj (Fin (k + 2) → ℝ))) (o : CloudObj (Fin (k + 2) → ℝ))
      (ci : ℕ) (_ : levels40Move θ₀ ce ci ls) (_ : ∀ p ∈ o :: os, GpuCloud Ws p.c)
      (f : ℝ → Fin o.c.n → ℕ → ℝ) (f' : Fin o.c.n → ℕ → ℝ) (_ : MatMoves θ₀ ci f f')
      (_ : levels40Smooth E a Ws θ₀ ci o (f θ₀) os ls)
      (oE : CloudObj (Fin (k + 2) → ℝ)) (fE : ℝ → Fin oE.c.n → ℕ → ℝ)
      (_ : ∀ θ, θ ≠ θ₀ → gpuNet40Loop E Ws o (f θ) os (ls.map (fun l => l.at θ)) (.ok ⟨oE, fE θ⟩))
      (G : Fin oE.c.n → ℕ → ℝ) (gs : List (BlockGrads × BlockGrads)) (fG : Fin o.c.n → ℕ → ℝ)
      (_ : gpu40Train E a Ws o (f θ₀) os (ls.map (fun l => l.at θ₀)) (ls.map Level40Curve.chans) oE (fE θ₀) G gs fG),
      ∃ o', MatMoves θ₀ ce fE o' ∧ matPairing ce G o' = levels40Pairing θ₀ ci ls gs + matPairing ci fG f' := by
  induction ls with
  | nil =>
    intro os o ci hm hc f f' hf hs oE fE hrun G gs fG ht
    match os, hc, hs, hrun, ht with
    | _ :: _, hc, hs, hrun, ht => exact ht.elim
    | [], hc, hs, hrun, ht =>
      obtain ⟨h1, rfl⟩ := ht
      obtain ⟨rfl, h2⟩ := Sigma.mk.inj h1
      obtain ⟨h3, rfl⟩ := Prod.mk.inj (eq_of_heq h2)
      have e : fE = f := by
        funext θ
        by_cases hθ : θ = θ₀
        · rw [hθ]; exact h3
        · have := hrun θ hθ
          simp only [List.map_nil, gpuNet40Loop] at this
          exact eq_of_heq (Sigma.mk.inj (Except.ok.inj this)).2
      subst e
      obtain rfl : ci = ce := hm
      exact ⟨f', hf, by simp [levels40Pairing]⟩
  | cons l ls ih =>
    intro os o ci hm hc f f' hf hs oE fE hrun G gs fG ht
    match os, hc, hs, hrun, ht with
    | [], hc, hs, hrun, ht => exact ht.elim
    | q :: os, hc, hs, hrun, ht =>
      simp only [List.map_cons] at ht hrun
      unfold gpu40Train at ht
      obtain ⟨f1₀, f2₀, G1, G2, g1, g2, gs', t1, t2, t3, rfl⟩ := ht
      obtain ⟨a1, a2, a3, a4, a5, a6⟩ := hm
      unfold levels40Smooth at hs
      obtain ⟨s1, s2⟩ := hs
      obtain ⟨s3, s4⟩ := s2 f1₀ t1.run
      have s5 := s4 f2₀ t2.run
      have hall : ∀ θ, ∃ f1 f2, (θ = θ₀ → f1 = f1₀ ∧ f2 = f2₀) ∧
          (θ ≠ θ₀ → (l.strided.at θ).GpuRun E Ws o.c q.c l.poolRadius l.poolRadius (f θ) (.ok f1)) ∧
          (θ ≠ θ₀ → (l.block.at θ).GpuRun E Ws q.c q.c l.convRadius 0 f1 (.ok f2)) ∧
          (θ ≠ θ₀ → gpuNet40Loop E Ws q f2 os (ls.map (fun l => l.at θ)) (.ok ⟨oE, fE θ⟩)) := by
        intro θ
        by_cases hθ : θ = θ₀
        · exact ⟨f1₀, f2₀, fun _ => ⟨rfl, rfl⟩, fun h => absurd hθ h, fun h => absurd hθ h, fun h => absurd hθ h⟩
        · have h := hrun θ hθ
          unfold gpuNet40Loop at h
          obtain ⟨r1, b1, h⟩ := h
          match r1, b1, h with
          | .ok f1, b1, h =>
            obtain ⟨r2, b2, h⟩ := h
            match r2, b2, h with
            | .ok f2, b2, h => exact ⟨f1, f2, fun h => absurd h hθ, fun _ => b1, fun _ => b2, fun _ => h⟩
      choose f1 f2 h0 b1 b2 b3 using hall
      obtain ⟨rfl, rfl⟩ := h0 θ₀ rfl
      obtain ⟨u1, m1, p1⟩ := C161_block_partial hk E a hE hT hL hW θ₀ ci l.strided a3 (hc o (by simp)) (hc q (by simp)) a1
        (fun _ => a1) f f' hf s1 f1 b1 G1 g1 fG t1
      obtain ⟨u2, m2, p2⟩ := C161_block_partial hk E a hE hT hL hW θ₀ l.strided.co l.block a5 (hc q (by simp)) (hc q (by simp)) a2
        (radius := 0) (fun h => by rw [a4] at h; cases h) f1 u1 m1 s3 f2 b2 G2 g2 G1 t2
      obtain ⟨o', m3, p3⟩ := ih os q l.block.co a6 (fun p hp => hc p (List.mem_cons_of_mem _ hp)) f2 u2 m2 s5 oE fE b3 G gs' G2 t3
      refine ⟨o', m3, ?_⟩
      rw [p3, p2, p1, levels40Pairing]
      ring

/-- All variables of the network have the given velocities at `θ₀`; the input has `ci` features per point. -/
structure Curve40.Moves {D : ℕ} (θ₀ : ℝ) (ci : ℕ) (N : Curve40 D) : Prop where
  init : N.init.Moves θ₀ ci N.c0
  block0 : N.block0.Moves θ₀ N.c0
  plain : N.block0.strided = false
  radius : 0 < N.convRadius0
  levels : levels40Move θ₀ N.ce N.block0.co N.levels
  head : HeadMoves θ₀ N.ce N.c1 N.C N.head N.head'

/-- No activation function is evaluated at its kink, maxima are attained once and no probability is at a bound of the
clipping, whatever the schedule. -/
def Curve40.Smooth (E : NetEnv) (a : NonLin) (Ws : ℕ) (θ₀ e : ℝ) (m1 m2 : ∀ n, Fin n → ℕ → ℝ) (N : Curve40 (k + 2))
    (clouds : List (CloudObj (Fin (k + 2) → ℝ))) (feats : List (List (ℕ → ℝ))) : Prop :=
  ∀ o o1 os, clouds = o :: o1 :: os → ∀ f0, net40Init o1 feats = .ok f0 → N.init.Smooth a θ₀ o1.c o1.c N.convRadius0 ∧
    ∀ f1, (N.init.at θ₀).GpuCall E Ws o1.c o1.c N.convRadius0 f0 (.ok f1) →
      N.block0.Smooth E a Ws θ₀ N.c0 o1.c o1.c N.convRadius0 0 f1 ∧
      ∀ f2, (N.block0.at θ₀).GpuRun E Ws o1.c o1.c N.convRadius0 0 f1 (.ok f2) →
        levels40Smooth E a Ws θ₀ N.block0.co o1 f2 os N.levels ∧
        ∀ oE fE, gpuNet40Loop E Ws o1 f2 os (N.at θ₀).levels (.ok ⟨oE, fE⟩) →
          OffKink N.ce (m1 _) ((N.head θ₀).bn1.apply true (pooled40 oE fE)) ∧
          OffKink N.c1 (m2 _) ((N.head θ₀).bn2.apply true ((N.head θ₀).dense1.apply
            (maskMul (m1 _) (fun i ch => kerasLrelu ((N.head θ₀).bn1.apply true (pooled40 oE fE) i ch))))) ∧
          ∀ b, OffClip N.C e ((N.head θ₀).run40 E (pooled40 oE fE) b)

/-- Gradients times velocities of all variables of the network. -/
noncomputable def Curve40.pairing {D : ℕ} (θ₀ : ℝ) (ci : ℕ) (N : Curve40 D) (g : Grads40) : ℝ :=
  N.init.pairing θ₀ ci N.c0 g.init + N.block0.pairing θ₀ N.c0 g.block0 + levels40Pairing θ₀ N.block0.co N.levels g.levels +
    headPairing N.ce N.c1 N.C g.head N.head'

/-- Global average pooling. -/
theorem pooled_node (θ₀ : ℝ) (c : ℕ) (o : CloudObj (Fin (k + 2) → ℝ)) (hb : ∀ i, o.c.batch i < o.c.B)
    (f : ℝ → Fin o.c.n → ℕ → ℝ) (f' : Fin o.c.n → ℕ → ℝ) (hf : MatMoves θ₀ c f f') :
    ∃ o', MatMoves θ₀ c (fun θ => pooled40 o (f θ)) o' ∧ ∀ G : Fin o.c.B → ℕ → ℝ, matPairing c G o' =
      matPairing c (globalPoolGrad .mean o.c (f θ₀) (rowsOf G)) f' := by
  have hd : ∀ G : Fin o.c.B → ℕ → ℝ, HasDerivAt (fun θ => matPairing c G (pooled40 o (f θ)))
      (matPairing c (globalPoolGrad .mean o.c (f θ₀) (rowsOf G)) f') θ₀ := by
    intro G
    have := C157_global_partial .mean o.c hb 0 c (rowsOf G) f f' θ₀ hf (fun h => by cases h)
    simp only [rowsOf_val] at this
    exact this
  obtain ⟨o', m, p⟩ := matMoves_of_pairings θ₀ c (fun θ => pooled40 o (f θ)) fun G => ⟨_, hd G⟩
  exact ⟨o', m, fun G => p G _ (hd G)⟩

/-- **C161**: the variables of the network of modelnet40.py move along any curve differentiable at `θ₀`.  For every training
step at `θ₀` and all runs of the network elsewhere, the loss is differentiable at `θ₀`, and its derivative is the sum of
all returned gradients times the velocities of the variables. -/
theorem C161_net40_partial (hk : k ≤ 1) (E : NetEnv) (a : NonLin) (hE : E.act = a.fwd) (m1 m2 : ∀ n, Fin n → ℕ → ℝ)
    (hM : ∀ n, TrainEnvOk E (m1 n) (m2 n)) {Ws : ℕ} (hW : 0 < Ws) (θ₀ : ℝ) (N : Curve40 (k + 2)) (ci : ℕ) (hN : N.Moves θ₀ ci)
    (e : ℝ) (he : 0 < e) (he' : e < 1 / 2) (clouds : List (CloudObj (Fin (k + 2) → ℝ))) (hc : ∀ p ∈ clouds, GpuCloud Ws p.c)
    (feats : List (List (ℕ → ℝ))) (labels : List ℕ) (hlab : ∀ l ∈ labels, l < N.C)
    (hs : N.Smooth E a Ws θ₀ e m1 m2 clouds feats) (loss : ℝ → ℝ)
    (hrun : ∀ θ, θ ≠ θ₀ → (N.at θ).GpuLoss E Ws N.C e clouds feats labels (loss θ)) (g : Grads40)
    (ht : (N.at θ₀).GpuTrainStep E a Ws N.c0 (N.block0.cr, N.block0.co) (N.levels.map Level40Curve.chans) N.c1 N.C e m1 m2 clouds
      feats labels (loss θ₀) g) :
    HasDerivAt loss (N.pairing θ₀ ci g) θ₀ := by
  match clouds, hc, hs, hrun, ht with
  | o :: o1 :: os, hc, hs, hrun, ht =>
    have hc1 : ∀ p ∈ o1 :: os, GpuCloud Ws p.c := fun p hp => hc p (List.mem_cons_of_mem _ hp)
    unfold Net40.GpuTrainStep at ht
    dsimp only at ht
    cases hf0 : net40Init o1 feats with
    | error er => rw [hf0] at ht; exact ht.elim
    | ok f0 =>
      rw [hf0] at ht
      obtain ⟨f1₀, f2₀, G1, G2, fG, oE, fE₀, lab, gi, g0, gs, hg, t1, t2, t3, rfl, hl0, hgh, t4, rfl⟩ := ht
      obtain ⟨s1, s2⟩ := hs o o1 os rfl f0 hf0
      obtain ⟨s3, s4⟩ := s2 f1₀ t1
      obtain ⟨s5, s6⟩ := s4 f2₀ t2.run
      have hloop₀ := gpu40Train_forward _ _ _ _ _ _ _ _ _ _ _ _ _ t3
      obtain ⟨s7, s8, s9⟩ := s6 oE fE₀ hloop₀
      have hlast := gpuNet40Loop_last _ _ _ _ _ _ _ _ hloop₀
      have hall : ∀ θ, ∃ (f1 f2 : Fin o1.c.n → ℕ → ℝ) (fE : Fin oE.c.n → ℕ → ℝ), (θ = θ₀ → f1 = f1₀ ∧ f2 = f2₀ ∧ fE = fE₀) ∧
          (N.init.at θ).GpuCall E Ws o1.c o1.c N.convRadius0 f0 (.ok f1) ∧
          (θ ≠ θ₀ → (N.block0.at θ).GpuRun E Ws o1.c o1.c N.convRadius0 0 f1 (.ok f2)) ∧
          (θ ≠ θ₀ → gpuNet40Loop E Ws o1 f2 os (N.levels.map (fun l => l.at θ)) (.ok ⟨oE, fE⟩)) ∧
          loss θ = trainLoss N.C e lab ((N.head θ).run40 E (pooled40 oE fE)) := by
        intro θ
        by_cases hθ : θ = θ₀
        · subst hθ
          exact ⟨f1₀, f2₀, fE₀, fun _ => ⟨rfl, rfl, rfl⟩, t1, fun h => absurd rfl h, fun h => absurd rfl h, hl0⟩
        · obtain ⟨logits, q1, q2, q3⟩ := hrun θ hθ
          unfold Net40.GpuLogits at q1
          dsimp only at q1
          rw [hf0] at q1
          obtain ⟨r1, v1, q1⟩ := q1
          match r1, v1, q1 with
          | .ok f1, v1, q1 =>
            obtain ⟨r2, v2, q1⟩ := q1
            match r2, v2, q1 with
            | .ok f2, v2, q1 =>
              obtain ⟨r3, v3, q1⟩ := q1
              match r3, v3, q1 with
              | .ok ⟨oE', fE⟩, v3, q1 =>
                obtain rfl : oE' = oE := (gpuNet40Loop_last _ _ _ _ _ _ _ _ v3).trans hlast.symm
                have q6 := Except.ok.inj q1
                refine ⟨f1, f2, fE, fun h => absurd h hθ, v1, fun _ => v2, fun _ => v3, ?_⟩
                rw [q3, q6]
                rfl
      choose f1 f2 fE h0 b1 b2 b3 hloss using hall
      obtain ⟨e1, e2, e3⟩ := h0 θ₀ rfl
      subst e1 e2 e3
      obtain ⟨u1, n1, p1⟩ := conv_node hk E a hE hW θ₀ ci N.c0 N.init hN.init (hc1 o1 (by simp)) (hc1 o1 (by simp)) hN.radius s1
        (fun _ => f0) (fun _ _ => 0) (fun _ _ _ => hasDerivAt_const _ _) f1 b1
      obtain ⟨u2, n2, p2⟩ := C161_block_partial hk E a hE (hM 0).training (hM 0).lrelu hW θ₀ N.c0 N.block0 hN.block0 (hc1 o1 (by simp))
        (hc1 o1 (by simp)) hN.radius (radius := 0) (fun h => by rw [hN.plain] at h; cases h) f1 u1 n1 s3 f2 b2 G2 g0 G1 t2
      obtain ⟨u3, n3, p3⟩ := C161_levels_partial hk E a hE (hM 0).training (hM 0).lrelu hW θ₀ N.ce N.levels os o1 N.block0.co hN.levels hc1
        f2 u2 n2 s5 oE fE b3 _ gs G2 t3
      have hmem : oE ∈ o1 :: os := by rw [hlast]; exact List.getLast_mem _
      obtain ⟨u4, n4, p4⟩ := pooled_node θ₀ N.ce oE (hc1 oE hmem).valid fE u3 n3
      have hlab' : ∀ b, lab b < N.C := fun b => hlab _ (by rw [List.mem_ofFn]; exact ⟨b, rfl⟩)
      have hd := (C159_head_partial E θ₀ N.ce N.c1 N.C e he he' N.head N.head' hN.head (m1 _) (m2 _) (hM _) lab hlab' _ u4 n4 s7 s8).2
        s9 hg hgh
      rw [p4, p3, p2, p1 G1 gi fG t4] at hd
      have e1 : loss = fun θ => trainLoss N.C e lab ((N.head θ).run40 E (pooled40 oE (fE θ))) := funext hloss
      rw [e1]
      refine hd.congr_deriv ?_
      unfold Curve40.pairing
      simp only [matPairing, mul_zero, Finset.sum_const_zero]
      ring

/-! ### Runs -/

theorem NetBlock.gpuTrain_runs (E : NetEnv) (a : NonLin) {Ws : ℕ} (hW : 0 < Ws) (b : NetBlock (k + 2)) (cr co : ℕ)
    {cin cout : Cloud (Fin (k + 2) → ℝ)} (h1 : GpuCloud Ws cin) (h2 : GpuCloud Ws cout) {convRadius radius : ℝ} (hcr : 0 < convRadius)
    (hr : b.strided = true → 0 < radius) (f : Fin cin.n → ℕ → ℝ) (out : Fin cout.n → ℕ → ℝ)
    (h : b.GpuRun E Ws cin cout convRadius radius f (.ok out)) (G : Fin cout.n → ℕ → ℝ) :
    ∃ g fG, b.GpuTrain E a Ws cr co cin cout convRadius radius f out G g fG := by
  obtain ⟨r, q1, q2⟩ := h
  match r, q1, q2 with
  | .ok r, q1, q2 =>
    obtain ⟨s, q3, q4⟩ := q2
    match s, q3, q4 with
    | .ok s, q3, q4 =>
      obtain ⟨gc, cG, hgc⟩ := NetConv.gpuTrain_runs a hW E.eps b.conv cr h1 h2 hcr
        (E.bnAct b.bn1 (b.down.apply (E.bnAct b.bn0 f))) (bnActBack b.bn2 r (b.up.grad co (E.bnAct b.bn2 r) G).x).x
      have hpool : ∀ sG : Fin cout.n → ℕ → ℝ, ∃ fS, b.GpuPoolTrain Ws E.eps cin cout radius f sG fS := by
        intro sG
        unfold NetBlock.GpuPoolTrain
        unfold NetBlock.GpuPool at q3
        by_cases hst : b.strided = true
        · simp only [if_pos hst]
          obtain ⟨nb, hnb⟩ := gpuFind_exists Ws (⟨cin, fun _ => radius, E.eps⟩ : Grid (k + 2) ℝ) cout (fun _ => radius)
            (fun _ => hr hst) (fun _ => le_rfl) hW h2.pos h2.one
          exact ⟨_, nb, hnb, rfl⟩
        · simp only [if_neg hst]
          rw [if_neg hst] at q3
          have hn : cout.n = cin.n := by
            by_contra h
            rw [dif_neg h] at q3
            cases q3
          exact ⟨_, hn.symm, rfl⟩
      obtain ⟨gp, sG, hsk⟩ : ∃ gp sG, (match b.proj with
          | none => gp = none ∧ sG = G
          | some (bn, l) => gp = some (bnActBack bn s (l.grad co (E.bnAct bn s) G).x, l.grad co (E.bnAct bn s) G) ∧
              sG = (bnActBack bn s (l.grad co (E.bnAct bn s) G).x).x) := by
        cases b.proj with
        | none => exact ⟨_, _, rfl, rfl⟩
        | some p => exact ⟨_, _, rfl, rfl⟩
      obtain ⟨fS, hfS⟩ := hpool sG
      exact ⟨_, _, r, s, sG, cG, fS, _, _, _, gc, _, _, gp, q1, q3, Except.ok.inj q4, rfl, rfl, hgc, rfl, rfl, rfl, hsk, hfS, rfl, rfl⟩

theorem gpu40Train_runs (E : NetEnv) (a : NonLin) {Ws : ℕ} (hW : 0 < Ws) (ls : List (Level40 (k + 2))) :
    ∀ (_ : ∀ l ∈ ls, 0 < l.poolRadius ∧ 0 < l.convRadius ∧ l.block.strided = false)
      (cs : List ((ℕ × ℕ) × (ℕ × ℕ))) (_ : cs.length = ls.length)
      (os : List (CloudObj (Fin (k + 2) → ℝ))) (o : CloudObj (Fin (k + 2) → ℝ)) (_ : ∀ p ∈ o :: os, GpuCloud Ws p.c)
      (f : Fin o.c.n → ℕ → ℝ) (oE : CloudObj (Fin (k + 2) → ℝ)) (fE : Fin oE.c.n → ℕ → ℝ)
      (_ : gpuNet40Loop E Ws o f os ls (.ok ⟨oE, fE⟩)) (G : Fin oE.c.n → ℕ → ℝ),
      ∃ gs fG, gpu40Train E a Ws o f os ls cs oE fE G gs fG := by
  induction ls with
  | nil =>
    intro _ cs hcs os o hc f oE fE h G
    obtain rfl : cs = [] := List.eq_nil_of_length_eq_zero hcs
    match os, hc, h with
    | _ :: _, hc, h => unfold gpuNet40Loop at h; cases h
    | [], hc, h =>
      unfold gpuNet40Loop at h
      cases h
      exact ⟨[], G, rfl, rfl⟩
  | cons l ls ih =>
    intro hl cs hcs os o hc f oE fE h G
    match cs, hcs, os, hc, h with
    | c :: cs, hcs, [], hc, h => unfold gpuNet40Loop at h; cases h
    | c :: cs, hcs, q :: os, hc, h =>
      unfold gpuNet40Loop at h
      obtain ⟨r1, b1, h⟩ := h
      match r1, b1, h with
      | .ok f1, b1, h =>
        obtain ⟨r2, b2, h⟩ := h
        match r2, b2, h with
        | .ok f2, b2, h =>
          obtain ⟨l1, l2, l3⟩ := hl l (by simp)
          obtain ⟨gs', G2, t3⟩ := ih (fun l' hx => hl l' (by simp [hx])) cs (by simpa using hcs) os q
            (fun p hp => hc p (List.mem_cons_of_mem _ hp)) f2 oE fE h G
          obtain ⟨g2, G1, t2⟩ := l.block.gpuTrain_runs E a hW c.2.1 c.2.2 (hc q (by simp)) (hc q (by simp)) l2 (radius := 0)
            (fun h => by rw [l3] at h; cases h) f1 f2 b2 G2
          obtain ⟨g1, fG, t1⟩ := l.strided.gpuTrain_runs E a hW c.1.1 c.1.2 (hc o (by simp)) (hc q (by simp)) l1 (fun _ => l1) f f1 b1 G1
          refine ⟨(g1, g2) :: gs', fG, ?_⟩
          unfold gpu40Train
          exact ⟨f1, f2, G1, G2, g1, g2, gs', t1, t2, t3, rfl⟩

/-- **C161, runs exist**: every run of the network in which all layers return can be the forward pass of a training step. -/
theorem C161_runs (E : NetEnv) (a : NonLin) (m1 m2 : ∀ n, Fin n → ℕ → ℝ) {Ws : ℕ} (hW : 0 < Ws) (N : Net40 (k + 2))
    (hr : 0 < N.convRadius0) (hb : N.block0.strided = false)
    (hl : ∀ l ∈ N.levels, 0 < l.poolRadius ∧ 0 < l.convRadius ∧ l.block.strided = false) (c0 : ℕ) (b0 : ℕ × ℕ)
    (cs : List ((ℕ × ℕ) × (ℕ × ℕ))) (hcs : cs.length = N.levels.length) (c1 C : ℕ) (e : ℝ)
    (clouds : List (CloudObj (Fin (k + 2) → ℝ))) (hc : ∀ p ∈ clouds, GpuCloud Ws p.c)
    (feats : List (List (ℕ → ℝ))) (labels : List ℕ) (loss : ℝ) (h : N.GpuLoss E Ws C e clouds feats labels loss) :
    ∃ g, N.GpuTrainStep E a Ws c0 b0 cs c1 C e m1 m2 clouds feats labels loss g := by
  obtain ⟨logits, q1, q2, q3⟩ := h
  match clouds, hc, q1 with
  | [], hc, q1 => cases q1
  | [_], hc, q1 => cases q1
  | o :: o1 :: os, hc, q1 =>
    have hc1 : ∀ p ∈ o1 :: os, GpuCloud Ws p.c := fun p hp => hc p (List.mem_cons_of_mem _ hp)
    unfold Net40.GpuLogits at q1
    dsimp only at q1
    unfold Net40.GpuTrainStep
    dsimp only
    cases hf0 : net40Init o1 feats with
    | error er => rw [hf0] at q1; cases q1
    | ok f0 =>
      rw [hf0] at q1
      obtain ⟨r1, v1, q1⟩ := q1
      match r1, v1, q1 with
      | .ok f1, v1, q1 =>
        obtain ⟨r2, v2, q1⟩ := q1
        match r2, v2, q1 with
        | .ok f2, v2, q1 =>
          obtain ⟨r3, v3, q1⟩ := q1
          match r3, v3, q1 with
          | .ok ⟨oE, fE⟩, v3, q1 =>
            have q6 := Except.ok.inj q1
            have hn : labels.length = oE.c.B := by rw [q2, q6, List.length_ofFn]
            have hlb : labels = List.ofFn (fun i : Fin oE.c.B => labels.get (Fin.cast hn.symm i)) := by
              refine List.ext_get (by rw [List.length_ofFn, hn]) fun i h1 h2 => ?_
              rw [List.get_ofFn]
              rfl
            obtain ⟨hg, hhg⟩ : ∃ hg, hg = N.head.back40 c1 C (m1 _) (m2 _) (pooled40 oE fE) (trainLossGrad C e
              (fun i : Fin oE.c.B => labels.get (Fin.cast hn.symm i)) (N.head.run40 E (pooled40 oE fE))) := ⟨_, rfl⟩
            obtain ⟨gs, G2, t3⟩ := gpu40Train_runs E a hW N.levels hl cs hcs os o1 hc1 f2 oE fE v3
              (globalPoolGrad .mean oE.c fE (rowsOf hg.bn1.x))
            obtain ⟨g0, G1, t2⟩ := N.block0.gpuTrain_runs E a hW b0.1 b0.2 (hc1 o1 (by simp)) (hc1 o1 (by simp)) hr (radius := 0)
              (fun h => by rw [hb] at h; cases h) f1 f2 v2 G2
            obtain ⟨gi, fG, t4⟩ := NetConv.gpuTrain_runs a hW E.eps N.init c0 (hc1 o1 (by simp)) (hc1 o1 (by simp)) hr f0 G1
            refine ⟨_, f1, f2, G1, G2, fG, oE, fE, _, gi, g0, gs, hg, v1, t2, t3, hlb, ?_, hhg, t4, rfl⟩
            rw [q3, q6]
            unfold trainLoss
            rw [← hlb]
            rfl

end
/-! ### The hypotheses can be met -/

/-- A block around a Monte Carlo convolution with one channel; all weights move. -/
noncomputable def exBlockCurve (ci co : ℕ) (strided : Bool) : BlockCurve 2 :=
  ⟨exBn, exBn', fun θ => ⟨ci, fun _ _ => 1 + θ, fun _ => θ⟩, ⟨ci, fun _ _ => 1, fun _ => 1⟩, exBn, exBn', exConvCurve, exBn, exBn',
    fun θ => ⟨1, fun _ _ => 1 + θ, fun _ => θ⟩, ⟨1, fun _ _ => 1, fun _ => 1⟩, strided,
    if ci = co then none else some ((exBn, exBn'), (fun θ => ⟨ci, fun _ _ => 1 + θ, fun _ => θ⟩, ⟨ci, fun _ _ => 1, fun _ => 1⟩)), 1, co⟩

/-- Two levels; the strided block doubles the number of channels. -/
noncomputable def exCurve40 : Curve40 2 :=
  ⟨exConvCurve, exBlockCurve 1 1 false, 1, 1, [⟨exBlockCurve 1 2 true, exBlockCurve 2 2 false, 1 / 8, 1⟩],
    fun θ => ⟨exBn θ, ⟨2, fun _ _ => 1 + θ, fun _ => θ⟩, exBn θ, ⟨1, fun _ o => if o = 0 then θ else 0, fun _ => 0⟩⟩,
    ⟨exBn', ⟨2, fun _ _ => 1, fun _ => 1⟩, exBn', ⟨1, fun _ o => if o = 0 then 1 else 0, fun _ => 0⟩⟩, 1, 2, 1, 2⟩

theorem exLin_moves (ci co : ℕ) : LinMoves 0 ci co (fun θ => ⟨ci, fun _ _ => 1 + θ, fun _ => θ⟩) ⟨ci, fun _ _ => 1, fun _ => 1⟩ := by
  have hid : HasDerivAt (fun θ : ℝ => θ) 1 0 := hasDerivAt_id 0
  exact ⟨fun _ => rfl, fun _ _ _ _ => hid.const_add 1, fun _ _ => hid⟩

theorem exBlockCurve_moves (ci co : ℕ) (st : Bool) : (exBlockCurve ci co st).Moves 0 ci := by
  refine ⟨exBn_moves _, exLin_moves _ _, exBn_moves _, exConvCurve_moves, exBn_moves _, exLin_moves _ _, ?_, ?_⟩
  · intro h
    by_contra hne
    have hne : ¬ ci = co := hne
    simp [exBlockCurve, hne] at h
  · intro p h
    by_cases hne : ci = co
    · simp [exBlockCurve, hne] at h
    · simp only [exBlockCurve, hne, if_false, Option.some.injEq] at h
      subst h
      exact ⟨exBn_moves _, exLin_moves _ _⟩

theorem exCurve40_moves : exCurve40.Moves 0 1 := by
  have hid : HasDerivAt (fun θ : ℝ => θ) 1 0 := hasDerivAt_id 0
  refine ⟨exConvCurve_moves, exBlockCurve_moves _ _ _, rfl, one_pos, ⟨by norm_num [exCurve40], one_pos, exBlockCurve_moves _ _ _, rfl,
    exBlockCurve_moves _ _ _, rfl⟩, exBn_moves _, exLin_moves _ _, exBn_moves _, fun _ => rfl, fun a _ o _ => ?_, fun _ _ => hasDerivAt_const _ _⟩
  by_cases ho : o = 0
  · simp only [exCurve40, ho, if_true]
    exact hid
  · simp only [exCurve40, ho, if_false]
    exact hasDerivAt_const _ _

theorem exBlockCurve_runs (θ : ℝ) (ci co : ℕ) (st : Bool) {cin cout : Cloud (Fin 2 → ℝ)} (h1 : GpuCloud 1 cin) (h2 : GpuCloud 1 cout)
    (hst : st = false → cout.n = cin.n) {cR pR : ℝ} (hc : 0 < cR) (hp : st = true → 0 < pR) (f : Fin cin.n → ℕ → ℝ) :
    ∃ out, ((exBlockCurve ci co st).at θ).GpuRun (k := 0) exTrainEnv 1 cin cout cR pR f (.ok out) := by
  obtain ⟨res, r, q1, q2⟩ := ((exBlockCurve ci co st).at θ).gpu_runs (k := 0) exTrainEnv one_pos h1 h2 hc hp f
  obtain ⟨o, q3, rfl⟩ := q1
  obtain ⟨s, q4, q5⟩ := q2
  obtain ⟨s, rfl⟩ : ∃ s', s = .ok s' := by
    unfold NetBlock.GpuPool at q4
    cases st with
    | true =>
      rw [if_pos (show ((exBlockCurve ci co true).at θ).strided = true from rfl)] at q4
      obtain ⟨_, _, rfl⟩ := q4
      exact ⟨_, rfl⟩
    | false =>
      rw [if_neg (by simp [exBlockCurve, BlockCurve.at]), dif_pos (hst rfl)] at q4
      exact ⟨_, q4⟩
  exact ⟨_, .ok o, ⟨o, q3, rfl⟩, .ok s, q4, rfl⟩

theorem exConv_smooth (cin cout : Cloud (Fin 2 → ℝ)) (r : ℝ) : exConvCurve.Smooth (k := 0) .elu 0 cin cout r :=
  fun p c _ _ => ⟨fun _ _ _ _ _ => Or.inl rfl, trivial⟩

theorem exBlockCurve_smooth (ci co : ℕ) (st : Bool) {cin cout : Cloud (Fin 2 → ℝ)} (h1 : cin.n ≤ 99) (h2 : cout.n ≤ 99) (cR pR : ℝ)
    (f : Fin cin.n → ℕ → ℝ) (hm : st = true → MaxOnce (k := 0) cin cout pR ci f) :
    (exBlockCurve ci co st).Smooth (k := 0) exTrainEnv .elu 1 0 ci cin cout cR pR f := by
  refine ⟨fun i ch _ => ?_, fun i ch _ => ?_, exConv_smooth _ _ _, fun r _ i ch _ => ?_, hm, fun p hp s _ i ch _ => ?_⟩
  · exact bn_large_ne (exBn 0) h1 _ ch rfl rfl one_pos i
  · exact bn_large_ne (exBn 0) h1 _ ch rfl rfl one_pos i
  · exact bn_large_ne (exBn 0) h2 _ ch rfl rfl one_pos i
  · by_cases hne : ci = co
    · simp [exBlockCurve, hne] at hp
    · simp only [exBlockCurve, hne, if_false, Option.some.injEq] at hp
      subst hp
      exact bn_large_ne (exBn 0) h2 _ ch rfl rfl one_pos i

theorem exClouds40 : ∀ p ∈ [exO3, exO3, exO2], GpuCloud 1 p.c := by
  intro p hp
  refine exClouds p ?_
  simp only [List.mem_cons, List.not_mem_nil, or_false] at hp ⊢
  tauto

theorem exLoss40_runs (θ : ℝ) : ∃ loss, (exCurve40.at θ).GpuLoss (k := 0) exTrainEnv 1 2 (1 / 10 ^ 7) [exO3, exO3, exO2]
    [[fun _ => 1, fun _ => 2], [fun _ => 3, fun _ => 0]] [0, 1] loss := by
  have h2 := exClouds exO2 (by simp)
  have h3 := exClouds exO3 (by simp)
  obtain ⟨f0, e0⟩ : ∃ f0, net40Init exO3 [[fun _ => (1 : ℝ), fun _ => 2], [fun _ => 3, fun _ => 0]] = .ok (f0 : _ → ℕ → ℝ) := by
    simp [net40Init, CloudObj.flattenFeatures, CloudObj.getSizes, flattenRows, exO3]
  obtain ⟨f1, r1⟩ := exMc_runs θ h3 h3 f0
  obtain ⟨f2, r2⟩ := exBlockCurve_runs θ 1 1 false h3 h3 (fun _ => rfl) one_pos (pR := 0) (fun h => by cases h) f1
  obtain ⟨f3, r3⟩ := exBlockCurve_runs θ 1 2 true h3 h2 (fun h => by cases h) (cR := 1 / 8) (by norm_num) (pR := 1 / 8) (fun _ => by norm_num) f2
  obtain ⟨f4, r4⟩ := exBlockCurve_runs θ 2 2 false h2 h2 (fun _ => rfl) one_pos (pR := 0) (fun h => by cases h) f3
  refine ⟨_, List.ofFn ((exCurve40.at θ).head.run40 exTrainEnv (pooled40 (k := 0) exO2 f4)), ?_, ?_, rfl⟩
  · unfold Net40.GpuLogits
    dsimp only
    rw [e0]
    exact ⟨.ok f1, r1, .ok f2, r2, .ok ⟨exO2, f4⟩, ⟨.ok f3, r3, .ok f4, r4, rfl⟩, rfl⟩
  · rw [List.length_ofFn]
    rfl

theorem exMaxOnce (f : Fin exO3.c.n → ℕ → ℝ) : MaxOnce (k := 0) exO3.c exO2.c (1 / 8) 1 f := by
  intro ch _ c p hp q hq _ _
  rw [mem_nbrs] at hp hq
  have key : ∀ (c : Fin 2) (p : Fin 3), exO3.c.batch p = exO2.c.batch c → ∑ d, (exO3.c.pts p d - exO2.c.pts c d) * (exO3.c.pts p d - exO2.c.pts c d) < (1 / 8 : ℝ) * (1 / 8) →
      (c = 0 ∧ p = 0) ∨ (c = 1 ∧ p = 2) := by
    intro c p hb hd
    fin_cases c <;> fin_cases p <;> simp [exO3, exO2, Fin.sum_univ_two] at hb hd ⊢ <;> norm_num at hd
  have a := key c p hp.1 hp.2.2
  have b := key c q hq.1 hq.2.2
  rcases a with ⟨a1, a2⟩ | ⟨a1, a2⟩ <;> rcases b with ⟨b1, b2⟩ | ⟨b1, b2⟩
  · exact a2.trans b2.symm
  · rw [a1] at b1; cases b1
  · rw [a1] at b1; cases b1
  · exact a2.trans b2.symm

theorem exCurve40_smooth : exCurve40.Smooth (k := 0) exTrainEnv .elu 1 0 (1 / 10 ^ 7) (fun _ _ _ => 2) (fun _ _ _ => 2)
    [exO3, exO3, exO2] [[fun _ => 1, fun _ => 2], [fun _ => 3, fun _ => 0]] := by
  intro o o1 os e f0 hf
  obtain ⟨rfl, e'⟩ := List.cons.inj e
  obtain ⟨rfl, rfl⟩ := List.cons.inj e'
  have n3 : exO3.c.n ≤ 99 := by norm_num [exO3]
  have n2 : exO2.c.n ≤ 99 := by norm_num [exO2]
  refine ⟨exConv_smooth _ _ _, fun f1 _ => ⟨exBlockCurve_smooth _ _ _ n3 n3 _ _ _ (fun h => by cases h), fun f2 _ =>
    ⟨⟨exBlockCurve_smooth _ _ _ n3 n2 _ _ _ (fun _ => exMaxOnce _), fun f3 _ => ⟨exBlockCurve_smooth _ _ _ n2 n2 _ _ _ (fun h => by cases h),
      fun _ _ => trivial⟩⟩, fun oE fE h => ?_⟩⟩⟩
  have hl := gpuNet40Loop_last _ _ _ _ _ _ _ _ h
  obtain rfl : oE = exO2 := hl
  have n2' : exO2.c.B ≤ 99 := by norm_num [exO2]
  refine ⟨fun i ch _ => Or.inr ?_, fun i ch _ => Or.inr ?_, fun b j hj => ?_⟩
  · exact bn_large_ne (exBn 0) n2' _ ch rfl rfl one_pos i
  · exact bn_large_ne (exBn 0) n2' _ ch rfl rfl one_pos i
  · have hsm : ∀ x : ℕ → ℝ, (∀ j < 2, x j = 0) → softmaxRow 2 x j = 1 / 2 := by
      intro x hx
      unfold softmaxRow
      rw [Finset.sum_range_succ, Finset.sum_range_one, hx 0 (by omega), hx 1 (by omega), hx j hj, Real.exp_zero]
      norm_num
    change softmaxRow 2 _ j ≠ _ ∧ softmaxRow 2 _ j ≠ _
    rw [hsm]
    · constructor <;> norm_num
    · intro j hj
      simp only [NetHead.run40, Lin.apply, conv1x1, exCurve40, Finset.sum_range_one]
      split <;> simp

example : ∃ loss g, (∀ θ, θ ≠ 0 → (exCurve40.at θ).GpuLoss (k := 0) exTrainEnv 1 2 (1 / 10 ^ 7) [exO3, exO3, exO2]
      [[fun _ => 1, fun _ => 2], [fun _ => 3, fun _ => 0]] [0, 1] (loss θ)) ∧
    (exCurve40.at 0).GpuTrainStep (k := 0) exTrainEnv .elu 1 1 (1, 1) [((1, 2), (1, 2))] 1 2 (1 / 10 ^ 7) (fun _ _ _ => 2) (fun _ _ _ => 2)
      [exO3, exO3, exO2] [[fun _ => 1, fun _ => 2], [fun _ => 3, fun _ => 0]] [0, 1] (loss 0) g ∧
    HasDerivAt loss (exCurve40.pairing 0 1 g) 0 := by
  choose loss hl using exLoss40_runs
  obtain ⟨g, hg⟩ := C161_runs (k := 0) exTrainEnv .elu (fun _ _ _ => 2) (fun _ _ _ => 2) one_pos (exCurve40.at 0) one_pos rfl
    (by simp [exCurve40, Curve40.at, Level40Curve.at, exBlockCurve, BlockCurve.at]) 1 (1, 1) [((1, 2), (1, 2))] rfl 1 2 _ _ exClouds40 _ _ _ (hl 0)
  exact ⟨loss, g, fun θ _ => hl θ, hg, C161_net40_partial (k := 0) (by omega) exTrainEnv .elu rfl _ _ (fun n => ⟨rfl, rfl, rfl, rfl⟩) one_pos
    0 exCurve40 1 exCurve40_moves _ (by norm_num) (by norm_num) _ exClouds40 _ _
    (by simp [exCurve40]) exCurve40_smooth loss (fun θ _ => hl θ) g hg⟩

end PC
