import Verif.Props.OptimTut
import Verif.Props.OptimNet

/-!
# C175: training with one shape per batch
-/

namespace PC
variable {k : ℕ}

/-- Logits which depend on the last dense layer and the features `d` before it only. -/
noncomputable def lastLogits (l : Lin) (d : ℕ → ℝ) (o : ℕ) : ℝ := ∑ ch ∈ Finset.range l.cin, d ch * l.w ch o + l.b o

/-- A normalisation of one row returns its offsets. -/
theorem bn_one (bn : BNorm) (f : Fin 1 → ℕ → ℝ) (i : Fin 1) (ch : ℕ) : bn.apply true f i ch = bn.beta ch := by
  rw [Subsingleton.elim i 0]
  simp [BNorm.apply]

theorem ofFn_one {X : Type*} {n : ℕ} {F : Fin n → X} {x : X} (h : List.ofFn F = [x]) : ∃ e : n = 1, F ⟨0, by omega⟩ = x := by
  have hn : n = 1 := by simpa using congrArg List.length h
  subst hn
  exact ⟨rfl, by simpa using h⟩

theorem runTut_one (E : NetEnv) (hE : E.training = true) (h : NetHead) {n : ℕ} (f : Fin n → ℕ → ℝ) {x : ℕ → ℝ}
    (hx : List.ofFn (h.runTut E f) = [x]) : x = lastLogits h.dense2 (fun ch => E.lrelu (h.bn2.beta ch)) := by
  obtain ⟨rfl, rfl⟩ := ofFn_one hx
  funext o
  simp only [NetHead.runTut, Lin.apply, conv1x1, NetEnv.bnAct, hE, bn_one, lastLogits]

theorem run40_one (E : NetEnv) (hE : E.training = true) (h : NetHead) {n : ℕ} (f : Fin n → ℕ → ℝ) {x : ℕ → ℝ}
    (hx : List.ofFn (h.run40 E f) = [x]) : x = lastLogits h.dense2 (fun ch => E.lrelu (E.drop2 1 (fun _ => h.bn2.beta) 0 ch)) := by
  obtain ⟨rfl, rfl⟩ := ofFn_one hx
  have e : h.bn2.apply true (h.dense1.apply (E.dropout1 (E.bnAct h.bn1 f))) = fun _ => h.bn2.beta := by
    funext i ch
    exact bn_one _ _ _ _
  funext o
  unfold NetHead.run40
  rw [hE, e]
  simp only [Lin.apply, conv1x1, NetEnv.dropout2, hE, lastLogits, if_true]
  rfl

theorem runSmall_one (E : NetEnv) (hE : E.training = true) (h : NetHead) {n : ℕ} (f : Fin n → ℕ → ℝ) {x : ℕ → ℝ}
    (hx : List.ofFn (h.runSmall E f) = [x]) : x = lastLogits h.dense2 (E.drop2 1 (fun _ ch => E.lrelu (h.bn2.beta ch)) 0) := by
  obtain ⟨rfl, rfl⟩ := ofFn_one hx
  have e : E.bnAct h.bn2 (h.dense1.apply (E.dropout1 (E.bnAct h.bn1 f))) = fun _ ch => E.lrelu (h.bn2.beta ch) := by
    funext i ch
    unfold NetEnv.bnAct
    rw [hE, bn_one]
  funext o
  unfold NetHead.runSmall
  rw [e]
  simp only [Lin.apply, conv1x1, NetEnv.dropout2, hE, lastLogits, if_true]
  rfl

/-- **C175, logits, network of the tutorial**: in training the logits of a batch of one shape depend on the offsets of the
second normalisation of the head and on the last dense layer, and on nothing else: not on the points, the features, the
convolutions, the samples or the schedule. -/
theorem C175_tutorial (E : NetEnv) (hE : E.training = true) {Ws : ℕ} (N : NetTut (k + 2)) (lower : String → String) (mode : String) (V : ℕ)
    (points : List (List (Fin (k + 2) → ℝ))) (feats : List (List (ℕ → ℝ))) (x : ℕ → ℝ)
    (h : N.GpuCall E Ws lower mode V points feats (.ok [x])) :
    x = lastLogits N.head.dense2 (fun ch => E.lrelu (N.head.bn2.beta ch)) := by
  unfold NetTut.GpuCall at h
  split at h
  · cases h
  obtain ⟨r, _, h⟩ := h
  cases r with
  | error e => cases h
  | ok os =>
    unfold NetTut.GpuLogits at h
    dsimp only at h
    split at h
    · cases h
    obtain ⟨r, _, h⟩ := h
    cases r with
    | error e => cases h
    | ok pf => exact runTut_one E hE N.head _ (Except.ok.inj h).symm

/-- **C175, logits, network of modelnet40.py**. -/
theorem C175_residual (E : NetEnv) (hE : E.training = true) {Ws : ℕ} (N : Net40 (k + 2)) (lower : String → String) (mode : String) (B V : ℕ)
    (points : List (List (Fin (k + 2) → ℝ))) (feats : List (List (ℕ → ℝ))) (sizes : List ℕ) (x : ℕ → ℝ)
    (h : N.GpuCall E Ws lower mode B V points feats sizes (.ok [x])) :
    x = lastLogits N.head.dense2 (fun ch => E.lrelu (E.drop2 1 (fun _ => N.head.bn2.beta) 0 ch)) := by
  unfold Net40.GpuCall at h
  split at h
  · cases h
  obtain ⟨r, _, h⟩ := h
  cases r with
  | error e => cases h
  | ok os =>
    unfold Net40.GpuLogits at h
    dsimp only at h
    split at h
    · split at h
      · cases h
      obtain ⟨r1, _, h⟩ := h
      cases r1 with
      | error e => cases h
      | ok f1 =>
        obtain ⟨r2, _, h⟩ := h
        cases r2 with
        | error e => cases h
        | ok f2 =>
          obtain ⟨r3, _, h⟩ := h
          cases r3 with
          | error e => cases h
          | ok pf => exact run40_one E hE N.head _ (Except.ok.inj h).symm
    · cases h

/-- **C175, logits, network of modelnet40_small.py**. -/
theorem C175_small (E : NetEnv) (hE : E.training = true) {Ws : ℕ} (N : NetSmall (k + 2)) (lower : String → String) (mode : String) (B V : ℕ)
    (points : List (List (Fin (k + 2) → ℝ))) (feats : List (List (ℕ → ℝ))) (sizes : List ℕ) (x : ℕ → ℝ)
    (h : N.GpuCall E Ws lower mode B V points feats sizes (.ok [x])) :
    x = lastLogits N.head.dense2 (E.drop2 1 (fun _ ch => E.lrelu (N.head.bn2.beta ch)) 0) := by
  unfold NetSmall.GpuCall at h
  split at h
  · cases h
  obtain ⟨r, _, h⟩ := h
  cases r with
  | error e => cases h
  | ok os =>
    unfold NetSmall.GpuLogits at h
    dsimp only at h
    split at h
    · cases h
    obtain ⟨r, _, h⟩ := h
    cases r with
    | error e => cases h
    | ok pf => exact runSmall_one E hE N.head _ (Except.ok.inj h).symm

/-- Gradients of a head which do not reach anything before the offsets of its second normalisation. -/
structure HeadOnlyEnd {n : ℕ} (g : HeadGrads n) : Prop where
  gamma2 : ∀ ch, g.bn2.gamma ch = 0
  w1 : ∀ i o, g.dense1.w i o = 0
  b1 : ∀ o, g.dense1.b o = 0
  gamma1 : ∀ ch, g.bn1.gamma ch = 0
  beta1 : ∀ ch, g.bn1.beta ch = 0
  x : ∀ i ch, g.bn1.x i ch = 0

theorem bnGrad_gamma_one (bn : BNorm) (f G : Fin 1 → ℕ → ℝ) (ch : ℕ) : (bn.grad f G).gamma ch = 0 := by
  simp [BNorm.grad, mul_comm]

theorem bnGrad_zero (bn : BNorm) {n : ℕ} (f G : Fin n → ℕ → ℝ) (hG : ∀ i ch, G i ch = 0) :
    (∀ ch, (bn.grad f G).gamma ch = 0) ∧ (∀ ch, (bn.grad f G).beta ch = 0) ∧ ∀ i ch, (bn.grad f G).x i ch = 0 := by
  refine ⟨fun ch => ?_, fun ch => ?_, fun i ch => ?_⟩ <;> simp [BNorm.grad, hG]

theorem linGrad_zero (l : Lin) (co : ℕ) {n : ℕ} (f G : Fin n → ℕ → ℝ) (hG : ∀ i ch, G i ch = 0) :
    (∀ i o, (l.grad co f G).w i o = 0) ∧ (∀ o, (l.grad co f G).b o = 0) ∧ ∀ i ch, (l.grad co f G).x i ch = 0 := by
  refine ⟨fun a o => ?_, fun ch => ?_, fun i ch => ?_⟩ <;> simp [Lin.grad, hG]

theorem backTut_one (h : NetHead) (c1 C : ℕ) {n : ℕ} (hn : n = 1) (f G : Fin n → ℕ → ℝ) : HeadOnlyEnd (h.backTut c1 C f G) := by
  subst hn
  have z : ∀ i ch, (h.backTut c1 C f G).dense1.x i ch = 0 :=
    (linGrad_zero h.dense1 c1 (fun _ _ => 0) _ fun i ch => C159_single h.bn2 _ _ i ch).2.2
  obtain ⟨p1, p2, p3⟩ := bnGrad_zero h.bn1 f (actBack (h.bn1.apply true f) (h.backTut c1 C f G).dense1.x) fun i ch => by
    rw [actBack, z, zero_mul]
  exact ⟨fun ch => bnGrad_gamma_one _ _ _ _, (linGrad_zero h.dense1 c1 _ _ fun i ch => C159_single h.bn2 _ _ i ch).1,
    (linGrad_zero h.dense1 c1 (fun _ _ => 0) _ fun i ch => C159_single h.bn2 _ _ i ch).2.1, p1, p2, p3⟩

theorem back40_one (h : NetHead) (c1 C : ℕ) {n : ℕ} (hn : n = 1) (m1 m2 f G : Fin n → ℕ → ℝ) : HeadOnlyEnd (h.back40 c1 C m1 m2 f G) := by
  subst hn
  have z : ∀ i ch, (h.back40 c1 C m1 m2 f G).dense1.x i ch = 0 :=
    (linGrad_zero h.dense1 c1 _ _ fun i ch => C159_single h.bn2 _ _ i ch).2.2
  obtain ⟨p1, p2, p3⟩ := bnGrad_zero h.bn1 f (actBack (h.bn1.apply true f) (maskMul m1 (h.back40 c1 C m1 m2 f G).dense1.x)) fun i ch => by
    rw [actBack, maskMul, z, zero_mul, zero_mul]
  exact ⟨fun ch => bnGrad_gamma_one _ _ _ _, (linGrad_zero h.dense1 c1 _ _ fun i ch => C159_single h.bn2 _ _ i ch).1,
    (linGrad_zero h.dense1 c1 (fun _ _ => 0) _ fun i ch => C159_single h.bn2 _ _ i ch).2.1, p1, p2, p3⟩

theorem backSmall_one (h : NetHead) (c1 C : ℕ) {n : ℕ} (hn : n = 1) (m1 m2 f G : Fin n → ℕ → ℝ) : HeadOnlyEnd (h.backSmall c1 C m1 m2 f G) := by
  subst hn
  have z : ∀ i ch, (h.backSmall c1 C m1 m2 f G).dense1.x i ch = 0 :=
    (linGrad_zero h.dense1 c1 _ _ fun i ch => C159_single h.bn2 _ _ i ch).2.2
  obtain ⟨p1, p2, p3⟩ := bnGrad_zero h.bn1 f (actBack (h.bn1.apply true f) (maskMul m1 (h.backSmall c1 C m1 m2 f G).dense1.x)) fun i ch => by
    rw [actBack, maskMul, z, zero_mul, zero_mul]
  exact ⟨fun ch => bnGrad_gamma_one _ _ _ _, (linGrad_zero h.dense1 c1 _ _ fun i ch => C159_single h.bn2 _ _ i ch).1,
    (linGrad_zero h.dense1 c1 (fun _ _ => 0) _ fun i ch => C159_single h.bn2 _ _ i ch).2.1, p1, p2, p3⟩

/-- **C175, gradients**: in a training step with one shape (one label), of the variables of the head only the offsets of its
second normalisation and its last dense layer get gradients; the gradient of the features handed to the head is zero, so that
nothing is learned from the shape. -/
theorem C175_head_tutorial (E : NetEnv) (a : NonLin) {Ws : ℕ} (N : NetTut (k + 2)) (cs : List ℕ) (cl c1 C : ℕ) (e : ℝ)
    (clouds : List (CloudObj (Fin (k + 2) → ℝ))) (feats : List (List (ℕ → ℝ))) (label : ℕ) (loss : ℝ) (g : TutGrads)
    (ht : N.GpuTrainStep E a Ws cs cl c1 C e clouds feats [label] loss g) : HeadOnlyEnd g.head := by
  unfold NetTut.GpuTrainStep at ht
  split at ht
  · split at ht
    · exact ht.elim
    · obtain ⟨oE, fE, lab, gs, gl, fG, hg, hl, _, rfl, _, rfl⟩ := ht
      obtain ⟨hB, _⟩ := ofFn_one hl.symm
      exact backTut_one _ _ _ hB _ _
  · exact ht.elim

/-- **C175, gradients, network of modelnet40.py**. -/
theorem C175_head_residual (E : NetEnv) (a : NonLin) {Ws : ℕ} (N : Net40 (k + 2)) (c0 : ℕ) (b0 : ℕ × ℕ) (cs : List ((ℕ × ℕ) × (ℕ × ℕ)))
    (c1 C : ℕ) (e : ℝ) (m1 m2 : ∀ n, Fin n → ℕ → ℝ) (clouds : List (CloudObj (Fin (k + 2) → ℝ))) (feats : List (List (ℕ → ℝ)))
    (label : ℕ) (loss : ℝ) (g : Grads40)
    (ht : N.GpuTrainStep E a Ws c0 b0 cs c1 C e m1 m2 clouds feats [label] loss g) : HeadOnlyEnd g.head := by
  unfold Net40.GpuTrainStep at ht
  split at ht
  · split at ht
    · exact ht.elim
    · obtain ⟨f1, f2, G1, G2, fG, oE, fE, lab, gi, g0, gs, hg, _, _, _, hl, _, rfl, _, rfl⟩ := ht
      obtain ⟨hB, _⟩ := ofFn_one hl.symm
      exact back40_one _ _ _ hB _ _ _ _
  · exact ht.elim

/-- **C175, gradients, network of modelnet40_small.py**. -/
theorem C175_head_small (E : NetEnv) (a : NonLin) {Ws : ℕ} (N : NetSmall (k + 2)) (cs : List (ℕ × ℕ)) (cl c1 C : ℕ) (e : ℝ)
    (m1 m2 : ∀ n, Fin n → ℕ → ℝ) (clouds : List (CloudObj (Fin (k + 2) → ℝ))) (feats : List (List (ℕ → ℝ)))
    (label : ℕ) (loss : ℝ) (g : SmallGrads)
    (ht : N.GpuTrainStep E a Ws cs cl c1 C e m1 m2 clouds feats [label] loss g) : HeadOnlyEnd g.head := by
  unfold NetSmall.GpuTrainStep at ht
  split at ht
  · split at ht
    · exact ht.elim
    · obtain ⟨n, out, lab, gs, gl, fG, hg, hl, _, rfl, _, rfl⟩ := ht
      obtain ⟨hB, _⟩ := ofFn_one hl.symm
      exact backSmall_one _ _ _ hB _ _ _ _
  · exact ht.elim

/-! ### Nothing reaches the convolutions -/

theorem gpuProjGrad_zero {n m : ℕ} (pairs : List (Fin n × Fin m)) (ranges : List ℕ) (hd : RangesDelimit ranges pairs)
    (hm : 0 < m) (nf cols : ℕ) (hK : opBasisOk cols = true) (hf : opFeaturesOk nf = true)
    (basis : Fin pairs.length → ℕ → ℝ) (f : Fin n → ℕ → ℝ) (g : Fin m → ℕ → ℕ → ℝ) (bG : ℕ → ℕ → ℝ)
    (fG : Fin n → ℕ → ℝ) (h : GpuProjGrad pairs ranges nf cols basis f g bG fG)
    (hg : ∀ c, ∀ ch < nf, ∀ b < cols, g c ch b = 0) :
    (∀ j : Fin pairs.length, ∀ b < cols, bG j.val b = 0) ∧ ∀ p, ∀ ch < nf, fG p ch = 0 := by
  have key := gpuProjGrad_spec pairs ranges hd hm nf cols hK hf basis f g bG fG h (fun j b => bG j.val b) fG
  have h0 : ∑ c : Fin m, ∑ ch ∈ Finset.range nf, ∑ b ∈ Finset.range cols,
        g c ch b * (basisProj pairs (fun j b => bG j.val b) f c ch b + basisProj pairs basis fG c ch b) = 0 :=
    Finset.sum_eq_zero fun c _ => Finset.sum_eq_zero fun ch hch => Finset.sum_eq_zero fun b hb => by
      rw [hg c ch (Finset.mem_range.1 hch) b (Finset.mem_range.1 hb), zero_mul]
  rw [h0] at key
  have n1 : 0 ≤ ∑ j : Fin pairs.length, ∑ b ∈ Finset.range cols, bG j.val b * bG j.val b :=
    Finset.sum_nonneg fun _ _ => Finset.sum_nonneg fun _ _ => mul_self_nonneg _
  have n2 : 0 ≤ ∑ p : Fin n, ∑ ch ∈ Finset.range nf, fG p ch * fG p ch :=
    Finset.sum_nonneg fun _ _ => Finset.sum_nonneg fun _ _ => mul_self_nonneg _
  have z1 : ∑ j : Fin pairs.length, ∑ b ∈ Finset.range cols, bG j.val b * bG j.val b = 0 := by linarith
  have z2 : ∑ p : Fin n, ∑ ch ∈ Finset.range nf, fG p ch * fG p ch = 0 := by linarith
  rw [Finset.sum_eq_zero_iff_of_nonneg fun _ _ => Finset.sum_nonneg fun _ _ => mul_self_nonneg _] at z1 z2
  refine ⟨fun j b hb => ?_, fun p ch hch => ?_⟩
  · have := z1 j (Finset.mem_univ _)
    rw [Finset.sum_eq_zero_iff_of_nonneg fun _ _ => mul_self_nonneg _] at this
    exact mul_self_eq_zero.1 (this b (Finset.mem_range.2 hb))
  · have := z2 p (Finset.mem_univ _)
    rw [Finset.sum_eq_zero_iff_of_nonneg fun _ _ => mul_self_nonneg _] at this
    exact mul_self_eq_zero.1 (this ch (Finset.mem_range.2 hch))

theorem vecNums_zero {n : ℕ} {g : ℕ → ℝ} (h : ∀ i < n, g i = 0) : ∀ x ∈ vecNums n g, x = 0 := by
  intro x hx
  obtain ⟨i, hi, hx⟩ := List.mem_flatMap.1 hx
  rw [List.mem_singleton.1 hx]
  exact h i (List.mem_range.1 hi)

theorem matNums_zero {n m : ℕ} {g : ℕ → ℕ → ℝ} (h : ∀ i < n, ∀ j < m, g i j = 0) : ∀ x ∈ matNums n m g, x = 0 := by
  intro x hx
  obtain ⟨i, hi, hx⟩ := List.mem_flatMap.1 hx
  exact vecNums_zero (h i (List.mem_range.1 hi)) x hx

theorem bnNums_zero {c n : ℕ} {g : BnGrads n} (h1 : ∀ ch < c, g.gamma ch = 0) (h2 : ∀ ch < c, g.beta ch = 0) : ∀ x ∈ bnNums c g, x = 0 := by
  intro x hx
  obtain ⟨i, hi, hx⟩ := List.mem_flatMap.1 hx
  rcases List.mem_append.1 hx with hx | hx <;> rw [List.mem_singleton.1 hx]
  · exact h1 i (List.mem_range.1 hi)
  · exact h2 i (List.mem_range.1 hi)

theorem mlpGrad_zero (a : NonLin) {P : ℕ} (ml : ℕ) : ∀ (ls : List (MlpLayer ℝ)) (prev : ℕ) (x G : ℕ → Fin P → ℕ → ℝ),
    (∀ mi < ml, ∀ j, ∀ h < (ls.getLast?.map MlpLayer.size).getD prev, G mi j h = 0) →
    (∀ v ∈ mlpNums ml prev ls (mlpGrad a prev ls x G).1, v = 0) ∧ ∀ mi < ml, ∀ j, ∀ i < prev, (mlpGrad a prev ls x G).2 mi j i = 0
  | [], prev, x, G, h => ⟨by simp [mlpNums], fun mi hmi j i hi => h mi hmi j i hi⟩
  | l :: ls, prev, x, G, h => by
    obtain ⟨h1, h2⟩ := mlpGrad_zero a ml ls l.size
      (fun mi j o => a.fwd (∑ i ∈ Finset.range prev, x mi j i * l.w mi i o + l.b mi o)) G (by
        intro mi hmi j i hi
        refine h mi hmi j i ?_
        cases ls with
        | nil => simpa using hi
        | cons l₂ ls => simpa [List.getLast?_cons] using hi)
    have hz : ∀ mi < ml, ∀ j, ∀ o < l.size, (mlpGrad a l.size ls
        (fun mi j o => a.fwd (∑ i ∈ Finset.range prev, x mi j i * l.w mi i o + l.b mi o)) G).2 mi j o *
        a.grad (∑ i ∈ Finset.range prev, x mi j i * l.w mi i o + l.b mi o) = 0 :=
      fun mi hmi j o ho => by rw [h2 mi hmi j o ho, zero_mul]
    refine ⟨fun v hv => ?_, fun mi hmi j i _ => ?_⟩
    · rcases List.mem_append.1 hv with hv | hv
      · obtain ⟨mi, hmi, hv⟩ := List.mem_flatMap.1 hv
        have hmi := List.mem_range.1 hmi
        rcases List.mem_append.1 hv with hv | hv
        · refine matNums_zero (fun i _ o ho => ?_) v hv
          dsimp only
          exact Finset.sum_eq_zero fun j _ => mul_eq_zero_of_right _ (hz mi hmi j o ho)
        · refine vecNums_zero (fun o ho => ?_) v hv
          dsimp only
          exact Finset.sum_eq_zero fun j _ => hz mi hmi j o ho
      · exact h1 v hv
    · exact Finset.sum_eq_zero fun o ho => mul_eq_zero_of_left (hz mi hmi j o (Finset.mem_range.1 ho)) _

theorem basisBackward_zero (a : NonLin) (L : PCLayer ℝ) (D : ℕ) {P : ℕ} (seg : Fin P → ℕ) (input : Fin P → ℕ → ℝ) (q : Fin P → ℝ)
    (bG : ℕ → ℕ → ℝ) (h : ∀ j : Fin P, ∀ b < L.hid, bG j.val b = 0) :
    (∀ i, ∀ b < L.hid, (L.basisBackward a D seg input q bG).axis i b = 0) ∧ (∀ b < L.hid, (L.basisBackward a D seg input q bG).bias b = 0) ∧
    (∀ i, (L.basisBackward a D seg input q bG).pw1 i = 0) ∧ (∀ i, (L.basisBackward a D seg input q bG).pb1 i = 0) ∧
    (∀ i, (L.basisBackward a D seg input q bG).pw2 i = 0) ∧ (L.basisBackward a D seg input q bG).pb2 = 0 := by
  have gt0 : ∀ (j : Fin P) (F : ℕ → ℝ), ∑ b ∈ Finset.range L.hid, bG j.val b * F b = 0 := fun j F =>
    Finset.sum_eq_zero fun b hb => by rw [h j b (Finset.mem_range.1 hb), zero_mul]
  simp only [PCLayer.basisBackward]
  refine ⟨fun i b hb => ?_, fun b hb => ?_, fun i => ?_, fun i => ?_, fun i => ?_, ?_⟩
  · exact Finset.sum_eq_zero fun j _ => by rw [h j b hb, zero_div, zero_mul, mul_zero]
  · exact Finset.sum_eq_zero fun j _ => by rw [h j b hb, zero_div, zero_mul]
  · exact Finset.sum_eq_zero fun j _ => mul_eq_zero_of_right _ (mul_eq_zero_of_left (mul_eq_zero_of_left (gt0 j _) _) _)
  · exact Finset.sum_eq_zero fun j _ => mul_eq_zero_of_left (mul_eq_zero_of_left (gt0 j _) _) _
  · exact Finset.sum_eq_zero fun j _ => mul_eq_zero_of_right _ (gt0 j _)
  · exact Finset.sum_eq_zero fun j _ => gt0 j _

/-- A convolution whose output has no gradient gets none. -/
theorem convTrain_zero (a : NonLin) {Ws : ℕ} (hW : 0 < Ws) (eps : ℝ) (L : NetConv (k + 2)) {ci co : ℕ} (hL : L.RmsFits ci co L)
    {cin cout : Cloud (Fin (k + 2) → ℝ)} (h2 : GpuCloud Ws cout) {radius : ℝ} (hr : 0 < radius)
    {f : Fin cin.n → ℕ → ℝ} {G : Fin cout.n → ℕ → ℝ} {g : ConvGrads} {fG : Fin cin.n → ℕ → ℝ}
    (h : L.GpuTrain a Ws eps co cin cout radius f G g fG) (hG : ∀ c, ∀ o < co, G c o = 0) :
    (∀ x ∈ L.nums ci co g, x = 0) ∧ ∀ p, ∀ ch < ci, fG p ch = 0 := by
  match L, h with
  | .mc L, h =>
    obtain ⟨ids, mG, xG, wG, hb, rfl⟩ := h
    obtain ⟨rfl, rfl, hml, hdiv, hne, _, hbo, hfo⟩ := hL
    obtain ⟨nb, self, B, W, B', W', pdfPts, wf, bG, ptG, b1, rfl, b3, hB, hW', hB', hW'', b4, b5, b6, rfl, rfl, b7, rfl⟩ := hb
    obtain ⟨g1, _, _⟩ := gpuIds_spec Ws cin cout radius eps hr hW h2.pos h2.one nb b1
    have hidx : ∀ mi < L.mlps, ∀ o < L.cout / L.mlps, mi * (L.cout / L.mlps) + o < L.cout := by
      intro mi hmi o ho
      calc mi * (L.cout / L.mlps) + o < (mi + 1) * (L.cout / L.mlps) := by rw [Nat.add_mul, Nat.one_mul]; omega
        _ ≤ L.mlps * (L.cout / L.mlps) := Nat.mul_le_mul_right _ hmi
        _ ≤ L.cout := Nat.mul_div_le _ _
    obtain ⟨z1, z2⟩ := gpuProjGrad_zero _ _ g1 h2.pos _ _ hbo hfo _ _ _ _ _ b6 (by
      intro c ch _ b hb
      refine Finset.sum_eq_zero fun o ho => ?_
      rw [hG c _ (hidx _ (Nat.div_lt_of_lt_mul (by rwa [Nat.mul_comm])) o (Finset.mem_range.1 ho)), zero_mul])
    refine ⟨fun x hx => ?_, z2⟩
    rcases List.mem_append.1 hx with hx | hx
    · refine (mlpGrad_zero a L.mlps L.layers (k + 2) _ _ ?_).1 x hx
      intro mi hmi j h hh
      have hh' : h < L.hid := by
        unfold MCLayer.hid
        cases hl : L.layers.getLast? with
        | none =>
          exact absurd (List.getLast?_eq_none_iff.1 hl) hne
        | some l => simpa [hl] using hh
      have : mi * L.hid + h < L.mlps * L.hid := by
        calc mi * L.hid + h < (mi + 1) * L.hid := by rw [Nat.add_mul, Nat.one_mul]; omega
          _ ≤ _ := Nat.mul_le_mul_right _ hmi
      show bG j.val (mi * L.hid + h) / _ = 0
      rw [z1 j _ this, zero_div]
    · obtain ⟨mi, hmi, hx⟩ := List.mem_flatMap.1 hx
      refine matNums_zero (fun t _ o ho => ?_) x hx
      exact Finset.sum_eq_zero fun c _ => by rw [hG c _ (hidx mi (List.mem_range.1 hmi) o ho), mul_zero]
  | .pc L, h =>
    obtain ⟨ids, net, xG, yG, wG, hb, rfl⟩ := h
    obtain ⟨rfl, hbo, hfo⟩ := hL
    obtain ⟨nb, self, B, W, B', W', pdfPts, wf, bG, ptG, gIn, q, input, basis, b1, rfl, b3, hB, hW', hB', hW'', b4, _, _, _, b5, b6, rfl, rfl, _⟩ := hb
    obtain ⟨g1, _, _⟩ := gpuIds_spec Ws cin cout radius eps hr hW h2.pos h2.one nb b1
    obtain ⟨z1, z2⟩ := gpuProjGrad_zero _ _ g1 h2.pos _ _ hbo hfo _ _ _ _ _ b6 (by
      intro c ch _ b hb
      exact Finset.sum_eq_zero fun o ho => by rw [hG c _ (Finset.mem_range.1 ho), zero_mul])
    refine ⟨fun x hx => ?_, z2⟩
    obtain ⟨w1, w2, w3, w4, w5, w6⟩ := basisBackward_zero a L (k + 2) (fun i => ((gpuIds (⟨cin, fun _ => radius, eps⟩ : Grid (k + 2) ℝ) nb).get i).2.val) input q bG z1
    simp only [NetConv.nums, List.mem_append, List.mem_singleton] at hx
    rcases hx with (((hx | hx) | hx) | hx) | hx
    · exact matNums_zero (fun i _ b hb => w1 i b hb) x hx
    · exact vecNums_zero w2 x hx
    · obtain ⟨i, _, hx⟩ := List.mem_flatMap.1 hx
      simp only [List.mem_append, List.mem_singleton] at hx
      rcases hx with (hx | hx) | hx
      · exact hx.trans (w3 i)
      · exact hx.trans (w4 i)
      · exact hx.trans (w5 i)
    · exact hx.trans w6
    · refine matNums_zero (fun t _ o ho => ?_) x hx
      exact Finset.sum_eq_zero fun c _ => by rw [hG c _ ho, mul_zero]
  | .kp L, h =>
    obtain ⟨ids, bG, wG, hb, rfl⟩ := h
    obtain ⟨rfl, hnk, _, _, hnk', hfo⟩ := hL
    obtain ⟨nb, wf, b1, rfl, b5, b6, rfl⟩ := hb
    obtain ⟨g1, _, _⟩ := gpuIds_spec Ws cin cout radius eps hr hW h2.pos h2.one nb b1
    obtain ⟨z1, z2⟩ := gpuProjGrad_zero _ _ g1 h2.pos _ _ (by rw [hnk]; exact (C39_padded_count L.nk).mpr hnk') hfo _ _ _ _ _ b6 (by
      intro c ch _ b hb
      unfold KPLayer.gradWf
      split
      · exact Finset.sum_eq_zero fun o ho => by rw [hG c _ (Finset.mem_range.1 ho), zero_mul]
      · rfl)
    refine ⟨fun x hx => ?_, z2⟩
    refine matNums_zero (fun t _ o ho => ?_) x hx
    exact Finset.sum_eq_zero fun c _ => by rw [hG c _ ho, mul_zero]

/-- A network whose last level has no gradient gets none. -/
theorem gpuTutTrain_zero (E : NetEnv) (a : NonLin) {Ws : ℕ} (hW : 0 < Ws) (N : NetTut (k + 2)) (cl : ℕ) (hr : 0 < N.lastConvRadius) :
    ∀ (ls : List (LevelTut (k + 2))) (cs : List ℕ) (os : List (CloudObj (Fin (k + 2) → ℝ))) (ci : ℕ)
      (o : CloudObj (Fin (k + 2) → ℝ)) (f : Fin o.c.n → ℕ → ℝ) (oE : CloudObj (Fin (k + 2) → ℝ)) (fE G : Fin oE.c.n → ℕ → ℝ)
      (gs : List TutLevelGrads) (gl : ConvGrads) (fG : Fin o.c.n → ℕ → ℝ),
      tutLevelsRmsFit N.last N.last cl ci ls ls cs → (∀ p ∈ os, GpuCloud Ws p.c) →
      gpuTutTrain E a Ws N cl o f os ls cs oE fE G gs gl fG → (∀ i, ∀ ch < cl, G i ch = 0) →
      (∀ x ∈ tutLevelsNums N.last cl ci ls cs gs gl, x = 0) ∧ ∀ p, ∀ ch < ci, fG p ch = 0
  | [], [], [o'], ci, o, f, oE, fE, G, gs, gl, fG, hN, ho, h, hG => by
    obtain ⟨r, G', _, he, ht, rfl⟩ := h
    cases he
    exact convTrain_zero a hW E.eps N.last hN (ho o' (by simp)) hr ht hG
  | l :: ls, c :: cs, o' :: os, ci, o, f, oE, fE, G, gs, gl, fG, hN, ho, h, hG => by
    rw [gpuTutTrain] at h
    obtain ⟨r, G', gc, gs', g1, _, h, rfl, ht, rfl⟩ := h
    obtain ⟨⟨hlr, hlc, _⟩, hN⟩ := hN
    obtain ⟨z1, z2⟩ := gpuTutTrain_zero E a hW N cl hr ls cs os c o' _ oE fE G gs' gl G' hN (fun p hp => ho p (List.mem_cons_of_mem _ hp)) h hG
    have hb : ∀ ch < c, (bnActBack l.bn r G').gamma ch = 0 ∧ (bnActBack l.bn r G').beta ch = 0 ∧ ∀ i, (bnActBack l.bn r G').x i ch = 0 := by
      intro ch hch
      have z : ∀ i, actBack (l.bn.apply true r) G' i ch = 0 := fun i => by rw [actBack, z2 i ch hch, zero_mul]
      refine ⟨?_, ?_, fun i => ?_⟩ <;> simp [bnActBack, BNorm.grad, z]
    obtain ⟨y1, y2⟩ := convTrain_zero a hW E.eps l.conv hlc (ho o' (by simp)) hlr ht (fun i ch hch => (hb ch hch).2.2 i)
    refine ⟨fun x hx => ?_, y2⟩
    simp only [tutLevelsNums, List.mem_append] at hx
    rcases hx with (hx | hx) | hx
    · exact y1 x hx
    · exact bnNums_zero (fun ch h => (hb ch h).1) (fun ch h => (hb ch h).2.1) x hx
    · exact z1 x hx
  | [], [], [], ci, o, f, oE, fE, G, gs, gl, fG, hN, ho, h, hG => h.elim
  | [], [], _ :: _ :: _, ci, o, f, oE, fE, G, gs, gl, fG, hN, ho, h, hG => h.elim
  | [], _ :: _, _, ci, o, f, oE, fE, G, gs, gl, fG, hN, ho, h, hG => hN.elim
  | _ :: _, [], _, ci, o, f, oE, fE, G, gs, gl, fG, hN, ho, h, hG => hN.elim
  | _ :: _, _ :: _, [], ci, o, f, oE, fE, G, gs, gl, fG, hN, ho, h, hG => h.elim

/-- **C175, gradients of the convolutions**: in a training step with one shape, the gradients of all convolutions and of all
normalisations before the head are zero, for every schedule. -/
theorem C175_convolutions_tutorial (E : NetEnv) (a : NonLin) {Ws : ℕ} (hW : 0 < Ws) (N : NetTut (k + 2)) (ci : ℕ) (cs : List ℕ) (cl c1 C : ℕ)
    (hN : N.RmsFits ci N cs cl c1) (e : ℝ) (clouds : List (CloudObj (Fin (k + 2) → ℝ))) (hc : ∀ p ∈ clouds, GpuCloud Ws p.c)
    (feats : List (List (ℕ → ℝ))) (label : ℕ) (loss : ℝ) (g : TutGrads)
    (ht : N.GpuTrainStep E a Ws cs cl c1 C e clouds feats [label] loss g) :
    ∀ x ∈ tutLevelsNums N.last cl ci N.levels cs g.levels g.last, x = 0 := by
  unfold NetTut.GpuTrainStep at ht
  split at ht
  · split at ht
    · exact ht.elim
    · obtain ⟨oE, fE, lab, gs, gl, fG, hg, hl, _, rfl, h, rfl⟩ := ht
      obtain ⟨hB, _⟩ := ofFn_one hl.symm
      have hz := (backTut_one N.head c1 C hB (pooled40 oE fE) (trainLossGrad C e lab (N.head.runTut E (pooled40 oE fE)))).x
      refine (gpuTutTrain_zero E a hW N cl hN.radius _ _ _ _ _ _ _ _ _ _ _ _ hN.levels
        (fun p hp => hc p (List.mem_cons_of_mem _ hp)) h fun i ch _ => ?_).1
      simp [globalPoolGrad, PoolOp.grad, rowsOf, hz]
  · exact ht.elim

/-! ### The hypotheses can be met -/

/-- One shape with two points, and the level after it. -/
noncomputable def exOne2 : CloudObj (Fin 2 → ℝ) := ⟨⟨2, ![![0, 0], ![1 / 4, 0]], ![0, 0], 1⟩, some ([1], [2]), some [1], none, none⟩
noncomputable def exOne1 : CloudObj (Fin 2 → ℝ) := ⟨⟨1, ![![0, 0]], ![0], 1⟩, some ([1], [1]), some [1], none, none⟩

theorem exOne_clouds : ∀ p ∈ [exOne2, exOne1, exOne1], GpuCloud 1 p.c := by
  have h1 : GpuCloud 1 exOne1.c := ⟨by decide, by simp [exOne1], by simp [exOne1]⟩
  have h2 : GpuCloud 1 exOne2.c := ⟨by decide, by simp [exOne2], by simp [exOne2]⟩
  intro p hp
  simp only [List.mem_cons, List.not_mem_nil, or_false] at hp
  rcases hp with rfl | rfl | rfl
  exacts [h2, h1, h1]

/-- A training step with one shape. -/
example : ∃ loss g, (exTutCurve.at 0).GpuTrainStep (k := 0) exTrainEnv .elu 1 [1] 1 1 2 (1 / 10 ^ 7)
      [exOne2, exOne1, exOne1] [[fun _ => 1, fun _ => 2]] [1] loss g ∧ HeadOnlyEnd g.head ∧
      ∀ x ∈ tutLevelsNums (exTutCurve.at 0).last 1 1 (exTutCurve.at 0).levels [1] g.levels g.last, x = 0 := by
  have h2 := exOne_clouds exOne1 (by simp)
  have h3 := exOne_clouds exOne2 (by simp)
  obtain ⟨f0, e0⟩ : ∃ f0, (exOne2.flattenFeatures [[fun _ => (1 : ℝ), fun _ => 2]]).1 = .ok (f0 : _ → ℕ → ℝ) := by
    simp [CloudObj.flattenFeatures, CloudObj.getSizes, flattenRows, exOne2]
  obtain ⟨r, hr⟩ := exMc_runs 0 h3 h2 f0
  obtain ⟨r', hr'⟩ := exMc_runs 0 h2 h2 (exTrainEnv.bnAct (exBn 0) r)
  have hl : (exTutCurve.at 0).GpuLoss (k := 0) exTrainEnv 1 2 (1 / 10 ^ 7) [exOne2, exOne1, exOne1] [[fun _ => 1, fun _ => 2]] [1]
      (batchLoss (sparseCE 2 (1 / 10 ^ 7)) [1] ((List.ofFn ((exTutCurve.at 0).head.runTut exTrainEnv (pooled40 exOne1 r'))).map (softmaxRow 2))) := by
    refine ⟨List.ofFn ((exTutCurve.at 0).head.runTut exTrainEnv (pooled40 exOne1 r')), ?_, ?_, rfl⟩
    · unfold NetTut.GpuLogits
      dsimp only
      rw [e0]
      exact ⟨.ok ⟨exOne1, r'⟩, ⟨.ok r, hr, .ok r', hr', rfl⟩, rfl⟩
    · rw [List.length_ofFn]
      rfl
  obtain ⟨g, hg⟩ := C168_runs (k := 0) exTrainEnv .elu one_pos (exTutCurve.at 0) one_pos
    (by simp [exTutCurve, TutCurve.at, TutLevelCurve.at]) [1] rfl 1 1 2 _ _ exOne_clouds _ [1] _ hl
  exact ⟨_, g, hg, C175_head_tutorial (k := 0) _ _ _ _ _ _ _ _ _ _ _ _ g hg,
    C175_convolutions_tutorial (k := 0) _ _ one_pos _ _ _ _ _ _ exTut_fits _ _ exOne_clouds _ _ _ g hg⟩

end PC
