import Verif.Props.OneShape

/-!
# C175: with one shape per batch no gradient reaches the convolutions, networks of the scripts
-/

namespace PC
variable {k : ℕ}

theorem bnActBack_zero (bn : BNorm) {n : ℕ} (f : Fin n → ℕ → ℝ) {G : Fin n → ℕ → ℝ} {ch : ℕ} (h : ∀ i, G i ch = 0) :
    (bnActBack bn f G).gamma ch = 0 ∧ (bnActBack bn f G).beta ch = 0 ∧ ∀ i, (bnActBack bn f G).x i ch = 0 := by
  have z : ∀ i, actBack (bn.apply true f) G i ch = 0 := fun i => by rw [actBack, h i, zero_mul]
  refine ⟨?_, ?_, fun i => ?_⟩ <;> simp [bnActBack, BNorm.grad, z]

theorem bnActBack_nums_zero (bn : BNorm) {n c : ℕ} (f : Fin n → ℕ → ℝ) {G : Fin n → ℕ → ℝ} (h : ∀ i, ∀ ch < c, G i ch = 0) :
    ∀ x ∈ bnNums c (bnActBack bn f G), x = 0 :=
  bnNums_zero (fun ch hc => (bnActBack_zero bn f fun i => h i ch hc).1) fun ch hc => (bnActBack_zero bn f fun i => h i ch hc).2.1

theorem linGrad_nums_zero (l : Lin) {co ci n : ℕ} (f : Fin n → ℕ → ℝ) {G : Fin n → ℕ → ℝ} (h : ∀ i, ∀ ch < co, G i ch = 0) :
    (∀ x ∈ linNums ci co (l.grad co f G), x = 0) ∧ ∀ i a, (l.grad co f G).x i a = 0 := by
  have w : ∀ a, ∀ o < co, (l.grad co f G).w a o = 0 := fun a o ho => by
    simp [Lin.grad, h _ o ho]
  have b : ∀ o < co, (l.grad co f G).b o = 0 := fun o ho => by
    simp [Lin.grad, h _ o ho]
  refine ⟨fun x hx => ?_, fun i a => ?_⟩
  · rcases List.mem_append.1 hx with hx | hx
    · exact matNums_zero (fun a _ o ho => w a o ho) x hx
    · exact vecNums_zero b x hx
  · simp only [Lin.grad]
    exact Finset.sum_eq_zero fun o ho => by rw [h i o (Finset.mem_range.1 ho), zero_mul]

/-! ### modelnet40_small.py -/

theorem gpuSmallTrain_zero (E : NetEnv) (a : NonLin) {Ws : ℕ} (hW : 0 < Ws) (N : NetSmall (k + 2)) (cl : ℕ) (hr : 0 < N.lastConvRadius) :
    ∀ (ls : List (LevelSmall (k + 2))) (cs : List (ℕ × ℕ)) (os : List (CloudObj (Fin (k + 2) → ℝ))) (ci : ℕ)
      (o : CloudObj (Fin (k + 2) → ℝ)) (f : Fin o.c.n → ℕ → ℝ) (n : ℕ) (out G : Fin n → ℕ → ℝ)
      (gs : List LevelGrads) (gl : ConvGrads) (fG : Fin o.c.n → ℕ → ℝ),
      levelsRmsFit N.last N.last cl ci ls ls cs → (∀ p ∈ os, GpuCloud Ws p.c) →
      gpuSmallTrain E a Ws N cl o f os ls cs n out G gs gl fG → (∀ i, ∀ ch < cl, G i ch = 0) →
      (∀ x ∈ levelsNums N.last cl ci ls cs gs gl, x = 0) ∧ ∀ p, ∀ ch < ci, fG p ch = 0
  | [], [], [o'], ci, o, f, n, out, G, gs, gl, fG, hN, ho, h, hG => by
    obtain ⟨r, G', _, he, ht, rfl⟩ := h
    cases he
    refine convTrain_zero a hW E.eps N.last hN (ho o' (by simp)) hr ht fun c ch hch => ?_
    exact Finset.sum_eq_zero fun i _ => by rw [hG i ch hch, ite_self]
  | l :: ls, c :: cs, o' :: os, ci, o, f, n, out, G, gs, gl, fG, hN, ho, h, hG => by
    rw [gpuSmallTrain] at h
    obtain ⟨r, G', gc, gs', g1, g3, g2, _, h, rfl, rfl, rfl, ht, rfl⟩ := h
    obtain ⟨⟨hlr, hlc, _⟩, hN⟩ := hN
    obtain ⟨z1, z2⟩ := gpuSmallTrain_zero E a hW N cl hr ls cs os c.2 o' _ n out G gs' gl G' hN (fun p hp => ho p (List.mem_cons_of_mem _ hp)) h hG
    have w3 := bnActBack_nums_zero l.bn2 (l.lin.apply (E.bnAct l.bn1 r)) z2
    have w2 := linGrad_nums_zero (ci := c.1) l.lin (E.bnAct l.bn1 r)
      (fun i ch (hch : ch < c.2) => (bnActBack_zero l.bn2 (l.lin.apply (E.bnAct l.bn1 r)) fun i => z2 i ch hch).2.2 i)
    have w1 := bnActBack_nums_zero (c := c.1) l.bn1 r (fun i ch _ => w2.2 i ch)
    obtain ⟨y1, y2⟩ := convTrain_zero a hW E.eps l.conv hlc (ho o' (by simp)) hlr ht
      (fun i ch _ => (bnActBack_zero l.bn1 r fun i => w2.2 i ch).2.2 i)
    refine ⟨fun x hx => ?_, y2⟩
    simp only [levelsNums, List.mem_append] at hx
    rcases hx with (((hx | hx) | hx) | hx) | hx
    exacts [y1 x hx, w1 x hx, w2.1 x hx, w3 x hx, z1 x hx]
  | [], [], [], ci, o, f, n, out, G, gs, gl, fG, hN, ho, h, hG => h.elim
  | [], [], _ :: _ :: _, ci, o, f, n, out, G, gs, gl, fG, hN, ho, h, hG => h.elim
  | [], _ :: _, _, ci, o, f, n, out, G, gs, gl, fG, hN, ho, h, hG => hN.elim
  | _ :: _, [], _, ci, o, f, n, out, G, gs, gl, fG, hN, ho, h, hG => hN.elim
  | _ :: _, _ :: _, [], ci, o, f, n, out, G, gs, gl, fG, hN, ho, h, hG => h.elim

/-- **C175, gradients before the head, network of modelnet40_small.py**: in a training step with one row of logits all
gradients of the convolutions, `Conv1x1` and normalisations of the levels are zero, for every schedule. -/
theorem C175_convolutions_small (E : NetEnv) (a : NonLin) {Ws : ℕ} (hW : 0 < Ws) (N : NetSmall (k + 2)) (ci : ℕ) (cs : List (ℕ × ℕ))
    (cl c1 C : ℕ) (hN : N.RmsFits ci N cs cl c1) (e : ℝ) (m1 m2 : ∀ n, Fin n → ℕ → ℝ) (clouds : List (CloudObj (Fin (k + 2) → ℝ)))
    (hc : ∀ p ∈ clouds, GpuCloud Ws p.c) (feats : List (List (ℕ → ℝ))) (label : ℕ) (loss : ℝ) (g : SmallGrads)
    (ht : N.GpuTrainStep E a Ws cs cl c1 C e m1 m2 clouds feats [label] loss g) :
    ∀ x ∈ levelsNums N.last cl ci N.levels cs g.levels g.last, x = 0 := by
  unfold NetSmall.GpuTrainStep at ht
  split at ht
  · split at ht
    · exact ht.elim
    · obtain ⟨n, out, lab, gs, gl, fG, hg, hl, _, rfl, h, rfl⟩ := ht
      obtain ⟨hB, _⟩ := ofFn_one hl.symm
      have hz := (backSmall_one N.head c1 C hB (m1 n) (m2 n) out (trainLossGrad C e lab (N.head.runSmall E out))).x
      exact (gpuSmallTrain_zero E a hW N cl hN.radius _ _ _ _ _ _ _ _ _ _ _ _ hN.levels
        (fun p hp => hc p (List.mem_cons_of_mem _ hp)) h fun i ch _ => hz i ch).1
  · exact ht.elim

/-! ### modelnet40.py -/

theorem blockTrain_zero (E : NetEnv) (a : NonLin) {Ws : ℕ} (hW : 0 < Ws) (b : NetBlock (k + 2)) {ci : ℕ} {c : ℕ × ℕ} (hb : b.RmsFits ci b c)
    {cin cout : Cloud (Fin (k + 2) → ℝ)} (h2 : GpuCloud Ws cout) {convRadius radius : ℝ} (hr : 0 < convRadius)
    {f : Fin cin.n → ℕ → ℝ} {out G : Fin cout.n → ℕ → ℝ} {g : BlockGrads} {fG : Fin cin.n → ℕ → ℝ}
    (h : b.GpuTrain E a Ws c.1 c.2 cin cout convRadius radius f out G g fG) (hG : ∀ i, ∀ ch < c.2, G i ch = 0) :
    (∀ x ∈ b.nums ci c g, x = 0) ∧ ∀ p, ∀ ch < ci, fG p ch = 0 := by
  obtain ⟨r, s, sG, cG, fS, g0, g1, gd, gc, g2, gu, gp, _, _, _, rfl, rfl, ht, rfl, rfl, rfl, hp, hpool, rfl, rfl⟩ := h
  have wu := linGrad_nums_zero (ci := c.1) b.up (E.bnAct b.bn2 r) hG
  have w2 := bnActBack_nums_zero (c := c.1) b.bn2 r (fun i ch _ => wu.2 i ch)
  obtain ⟨y1, y2⟩ := convTrain_zero a hW E.eps b.conv hb.conv h2 hr ht (fun i ch _ => (bnActBack_zero b.bn2 r fun i => wu.2 i ch).2.2 i)
  have w1 := bnActBack_nums_zero b.bn1 (b.down.apply (E.bnAct b.bn0 f)) y2
  have wd := linGrad_nums_zero (ci := ci) b.down (E.bnAct b.bn0 f)
    (fun i ch (hch : ch < c.1) => (bnActBack_zero b.bn1 (b.down.apply (E.bnAct b.bn0 f)) fun i => y2 i ch hch).2.2 i)
  have w0 := bnActBack_nums_zero (c := ci) b.bn0 f (fun i ch _ => wd.2 i ch)
  have hs : (∀ x ∈ projNums ci c.2 b.proj gp, x = 0) ∧ ∀ i, ∀ ch < ci, sG i ch = 0 := by
    have hf := hb.proj
    cases hq : b.proj with
    | none =>
      rw [hq] at hp hf
      obtain ⟨rfl, rfl⟩ := hp
      have hf : ci = c.2 := hf
      exact ⟨by simp [projNums], fun i ch hch => hG i ch (hf ▸ hch)⟩
    | some q =>
      rw [hq] at hp
      obtain ⟨rfl, rfl⟩ := hp
      have wl := linGrad_nums_zero (ci := ci) q.2 (E.bnAct q.1 s) hG
      refine ⟨fun x hx => ?_, fun i ch _ => (bnActBack_zero q.1 s fun i => wl.2 i ch).2.2 i⟩
      rcases List.mem_append.1 hx with hx | hx
      · exact bnActBack_nums_zero (c := ci) q.1 s (fun i ch _ => wl.2 i ch) x hx
      · exact wl.1 x hx
  have hS : ∀ p, ∀ ch < ci, fS p ch = 0 := by
    intro p ch hch
    unfold NetBlock.GpuPoolTrain at hpool
    split at hpool
    · obtain ⟨nb, _, rfl⟩ := hpool
      have hz : ∀ c', rowsOf sG c' ch = 0 := fun c' => by
        unfold rowsOf
        split
        · exact hs.2 _ ch hch
        · rfl
      refine Finset.sum_eq_zero fun j _ => ?_
      split
      · simp [PoolOp.grad, hz]
      · rfl
    · obtain ⟨_, rfl⟩ := hpool
      exact hs.2 _ ch hch
  refine ⟨fun x hx => ?_, fun p ch hch => ?_⟩
  · simp only [NetBlock.nums, List.mem_append] at hx
    rcases hx with (((((hx | hx) | hx) | hx) | hx) | hx) | hx
    exacts [w0 x hx, wd.1 x hx, w1 x hx, y1 x hx, w2 x hx, wu.1 x hx, hs.1 x hx]
  · change (bnActBack b.bn0 f _).x p ch + fS p ch = 0
    rw [(bnActBack_zero b.bn0 f fun i => wd.2 i ch).2.2 p, hS p ch hch, add_zero]

theorem gpu40Train_zero (E : NetEnv) (a : NonLin) {Ws : ℕ} (hW : 0 < Ws) (ce : ℕ) :
    ∀ (ls : List (Level40 (k + 2))) (cs : List ((ℕ × ℕ) × (ℕ × ℕ))) (os : List (CloudObj (Fin (k + 2) → ℝ))) (ci : ℕ)
      (o : CloudObj (Fin (k + 2) → ℝ)) (f : Fin o.c.n → ℕ → ℝ) (oE : CloudObj (Fin (k + 2) → ℝ)) (fE G : Fin oE.c.n → ℕ → ℝ)
      (gs : List (BlockGrads × BlockGrads)) (fG : Fin o.c.n → ℕ → ℝ),
      levels40RmsFit ce ci ls ls cs → (∀ p ∈ os, GpuCloud Ws p.c) →
      gpu40Train E a Ws o f os ls cs oE fE G gs fG → (∀ i, ∀ ch < ce, G i ch = 0) →
      (∀ x ∈ levels40Nums ci ls cs gs, x = 0) ∧ ∀ p, ∀ ch < ci, fG p ch = 0
  | [], [], [], ci, o, f, oE, fE, G, gs, fG, hN, ho, h, hG => by
    obtain ⟨he, rfl⟩ := h
    cases he
    have hN : ci = ce := hN
    subst hN
    exact ⟨by simp [levels40Nums], hG⟩
  | l :: ls, c :: cs, o' :: os, ci, o, f, oE, fE, G, gs, fG, hN, ho, h, hG => by
    obtain ⟨f1, f2, G1, G2, g1, g2, gs', h1, h2, h, rfl⟩ := h
    obtain ⟨⟨hp, hcr, hs, _, hb⟩, hN⟩ := hN
    obtain ⟨z1, z2⟩ := gpu40Train_zero E a hW ce ls cs os c.2.2 o' _ oE fE G gs' G2 hN (fun p hp => ho p (List.mem_cons_of_mem _ hp)) h hG
    obtain ⟨y1, y2⟩ := blockTrain_zero E a hW l.block hb (ho o' (by simp)) hcr h2 z2
    obtain ⟨x1, x2⟩ := blockTrain_zero E a hW l.strided hs (ho o' (by simp)) hp h1 y2
    refine ⟨fun x hx => ?_, x2⟩
    simp only [levels40Nums, List.mem_append] at hx
    rcases hx with (hx | hx) | hx
    exacts [x1 x hx, y1 x hx, z1 x hx]
  | [], [], _ :: _, ci, o, f, oE, fE, G, gs, fG, hN, ho, h, hG => h.elim
  | [], _ :: _, _, ci, o, f, oE, fE, G, gs, fG, hN, ho, h, hG => hN.elim
  | _ :: _, [], _, ci, o, f, oE, fE, G, gs, fG, hN, ho, h, hG => hN.elim
  | _ :: _, _ :: _, [], ci, o, f, oE, fE, G, gs, fG, hN, ho, h, hG => h.elim

/-- **C175, gradients before the head, network of modelnet40.py**: in a training step with one shape all gradients of the first
convolution and of all blocks are zero, for every schedule. -/
theorem C175_convolutions_residual (E : NetEnv) (a : NonLin) {Ws : ℕ} (hW : 0 < Ws) (N : Net40 (k + 2)) (ci c0 : ℕ) (b0 : ℕ × ℕ)
    (cs : List ((ℕ × ℕ) × (ℕ × ℕ))) (ce c1 C : ℕ) (hN : N.RmsFits ci N c0 b0 cs ce c1) (e : ℝ) (m1 m2 : ∀ n, Fin n → ℕ → ℝ)
    (clouds : List (CloudObj (Fin (k + 2) → ℝ))) (hc : ∀ p ∈ clouds, GpuCloud Ws p.c) (feats : List (List (ℕ → ℝ)))
    (label : ℕ) (loss : ℝ) (g : Grads40) (ht : N.GpuTrainStep E a Ws c0 b0 cs c1 C e m1 m2 clouds feats [label] loss g) :
    (∀ x ∈ N.init.nums ci c0 g.init, x = 0) ∧ (∀ x ∈ N.block0.nums c0 b0 g.block0, x = 0) ∧
      ∀ x ∈ levels40Nums b0.2 N.levels cs g.levels, x = 0 := by
  unfold Net40.GpuTrainStep at ht
  split at ht
  · split at ht
    · exact ht.elim
    · obtain ⟨f1, f2, G1, G2, fG, oE, fE, lab, gi, g0, gs, hg, _, hb, hv, hl, _, rfl, hi, rfl⟩ := ht
      obtain ⟨hB, _⟩ := ofFn_one hl.symm
      have hz := (back40_one N.head c1 C hB (m1 _) (m2 _) (pooled40 oE fE) (trainLossGrad C e lab (N.head.run40 E (pooled40 oE fE)))).x
      obtain ⟨z1, z2⟩ := gpu40Train_zero E a hW ce _ _ _ b0.2 _ _ _ _ _ _ _ hN.levels
        (fun p hp => hc p (List.mem_cons_of_mem _ (List.mem_cons_of_mem _ hp))) hv fun i ch _ => by
          simp [globalPoolGrad, PoolOp.grad, rowsOf, hz]
      obtain ⟨y1, y2⟩ := blockTrain_zero E a hW N.block0 hN.block0 (hc _ (by simp)) hN.radius hb z2
      exact ⟨(convTrain_zero a hW E.eps N.init hN.init (hc _ (by simp)) hN.radius hi y2).1, y1, z1⟩
  · exact ht.elim

/-! ### The hypotheses can be met -/

example : ∃ loss g, (exSmallCurve.at 0).GpuTrainStep (k := 0) exTrainEnv .elu 1 [(1, 1)] 1 1 2 (1 / 10 ^ 7) (fun _ _ _ => 2) (fun _ _ _ => 2)
      [exOne2, exOne1, exOne1] [[fun _ => 1, fun _ => 2]] [1] loss g ∧ HeadOnlyEnd g.head ∧
      ∀ x ∈ levelsNums (exSmallCurve.at 0).last 1 1 (exSmallCurve.at 0).levels [(1, 1)] g.levels g.last, x = 0 := by
  have h2 := exOne_clouds exOne1 (by simp)
  have h3 := exOne_clouds exOne2 (by simp)
  obtain ⟨f0, e0⟩ : ∃ f0, (exOne2.flattenFeatures [[fun _ => (1 : ℝ), fun _ => 2]]).1 = .ok (f0 : _ → ℕ → ℝ) := by
    simp [CloudObj.flattenFeatures, CloudObj.getSizes, flattenRows, exOne2]
  obtain ⟨r, hr⟩ := exMc_runs 0 h3 h2 f0
  obtain ⟨r', hr'⟩ := exMc_runs 0 h2 h2 (exTrainEnv.bnAct (exBn 0) ((⟨1, fun _ _ => 1 + 0, fun _ => 0⟩ : Lin).apply
    (exTrainEnv.bnAct (exBn 0) r)))
  have hl : ∃ loss, (exSmallCurve.at 0).GpuLoss (k := 0) exTrainEnv 1 2 (1 / 10 ^ 7) [exOne2, exOne1, exOne1] [[fun _ => 1, fun _ => 2]] [1] loss := by
    refine ⟨_, List.ofFn ((exSmallCurve.at 0).head.runSmall exTrainEnv (r' ∘ exOne1.c.sortedIndicesBatch)), ?_, ?_, rfl⟩
    · unfold NetSmall.GpuLogits
      dsimp only
      rw [e0]
      exact ⟨.ok ⟨1, r' ∘ exOne1.c.sortedIndicesBatch⟩, ⟨.ok r, hr, .ok r', hr', rfl⟩, rfl⟩
    · rw [List.length_ofFn]
      rfl
  obtain ⟨loss, hl⟩ := hl
  obtain ⟨g, hg⟩ := C160_runs (k := 0) exTrainEnv .elu (fun _ _ _ => 2) (fun _ _ _ => 2) one_pos (exSmallCurve.at 0) one_pos
    (by simp [exSmallCurve, SmallCurve.at, LevelCurve.at]) [(1, 1)] rfl 1 1 2 _ _ exOne_clouds _ [1] _ hl
  exact ⟨_, g, hg, C175_head_small (k := 0) _ _ _ _ _ _ _ _ _ _ _ _ _ _ g hg,
    C175_convolutions_small (k := 0) _ _ one_pos _ _ _ _ _ _ exSmall_fits _ _ _ _ exOne_clouds _ _ _ g hg⟩

theorem exOne_clouds40 : ∀ p ∈ [exOne2, exOne2, exOne1], GpuCloud 1 p.c := by
  intro p hp
  exact exOne_clouds p (by simp at hp ⊢; tauto)

example : ∃ loss g, (exCurve40.at 0).GpuTrainStep (k := 0) exTrainEnv .elu 1 1 (1, 1) [((1, 2), (1, 2))] 1 2 (1 / 10 ^ 7) (fun _ _ _ => 2)
      (fun _ _ _ => 2) [exOne2, exOne2, exOne1] [[fun _ => 1, fun _ => 2]] [1] loss g ∧ HeadOnlyEnd g.head ∧
      ∀ x ∈ levels40Nums 1 (exCurve40.at 0).levels [((1, 2), (1, 2))] g.levels, x = 0 := by
  have h2 := exOne_clouds exOne1 (by simp)
  have h3 := exOne_clouds exOne2 (by simp)
  obtain ⟨f0, e0⟩ : ∃ f0, net40Init exOne2 [[fun _ => (1 : ℝ), fun _ => 2]] = .ok (f0 : _ → ℕ → ℝ) := by
    simp [net40Init, CloudObj.flattenFeatures, CloudObj.getSizes, flattenRows, exOne2]
  obtain ⟨f1, r1⟩ := exMc_runs 0 h3 h3 f0
  obtain ⟨f2, r2⟩ := exBlockCurve_runs 0 1 1 false h3 h3 (fun _ => rfl) one_pos (pR := 0) (fun h => by cases h) f1
  obtain ⟨f3, r3⟩ := exBlockCurve_runs 0 1 2 true h3 h2 (fun h => by cases h) (cR := 1 / 8) (by norm_num) (pR := 1 / 8) (fun _ => by norm_num) f2
  obtain ⟨f4, r4⟩ := exBlockCurve_runs 0 2 2 false h2 h2 (fun _ => rfl) one_pos (pR := 0) (fun h => by cases h) f3
  have hl : ∃ loss, (exCurve40.at 0).GpuLoss (k := 0) exTrainEnv 1 2 (1 / 10 ^ 7) [exOne2, exOne2, exOne1] [[fun _ => 1, fun _ => 2]] [1] loss := by
    refine ⟨_, List.ofFn ((exCurve40.at 0).head.run40 exTrainEnv (pooled40 (k := 0) exOne1 f4)), ?_, ?_, rfl⟩
    · unfold Net40.GpuLogits
      dsimp only
      rw [e0]
      exact ⟨.ok f1, r1, .ok f2, r2, .ok ⟨exOne1, f4⟩, ⟨.ok f3, r3, .ok f4, r4, rfl⟩, rfl⟩
    · rw [List.length_ofFn]
      rfl
  obtain ⟨loss, hl⟩ := hl
  obtain ⟨g, hg⟩ := C161_runs (k := 0) exTrainEnv .elu (fun _ _ _ => 2) (fun _ _ _ => 2) one_pos (exCurve40.at 0) one_pos rfl
    (by simp [exCurve40, Curve40.at, Level40Curve.at, exBlockCurve, BlockCurve.at]) 1 (1, 1) [((1, 2), (1, 2))] rfl 1 2 _ _ exOne_clouds40 _ [1] _ hl
  exact ⟨_, g, hg, C175_head_residual (k := 0) _ _ _ _ _ _ _ _ _ _ _ _ _ _ _ g hg,
    (C175_convolutions_residual (k := 0) _ _ one_pos _ _ _ _ _ _ _ _ exNet40_fits _ _ _ _ exOne_clouds40 _ _ _ g hg).2.2⟩

end PC
