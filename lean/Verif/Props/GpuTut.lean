import Verif.GpuTut
import Verif.Props.GpuNet
import Verif.Props.Tutorial

/-!
# C140: the network of the tutorial on the GPU
-/

set_option linter.unusedVariables false

namespace PC

section
variable {k : ℕ}

/-- Number of channels a convolution reads. -/
def NetConv.reads {D : ℕ} : NetConv D → ℕ
  | .mc L => L.cin
  | .pc L => L.cin
  | .kp L => L.cin

/-- The convolution that follows. -/
def NetTut.next {D : ℕ} (N : NetTut D) : List (LevelTut D) → NetConv D
  | [] => N.last
  | l :: _ => l.conv

/-- Every layer reads channels that the layer before it has written. -/
def NetTut.FitsFrom {D : ℕ} (N : NetTut D) : List (LevelTut D) → Prop
  | [] => N.last.Writes N.head.dense1.cin
  | l :: ls => l.conv.Writes (N.next ls).reads ∧ N.FitsFrom ls

/-- The convolutions of the network fit the CUDA operations. -/
structure NetTut.GpuOk (E : NetEnv) (N : NetTut (k + 2)) : Prop where
  ok : N.Ok
  last : N.last.GpuOk E
  levels : ∀ l ∈ N.levels, l.conv.GpuOk E
  fits : N.FitsFrom N.levels

/-- A convolution reads only its channels. -/
theorem NetConv.call_congr (E : NetEnv) (hdev : E.dev = .gpu) (heps : 0 < E.eps) {L : NetConv (k + 2)} (hL : L.Ok)
    {cin cout : Cloud (Fin (k + 2) → ℝ)} (hin : cin.Valid ∧ 0 < cin.n) (hout : cout.Valid ∧ 0 < cout.n) (hB : cout.B = cin.B)
    {radius : ℝ} (hr : 0 < radius) {f f' : Fin cin.n → ℕ → ℝ} (h : EqTo L.reads f f') :
    L.call E cin cout radius f = L.call E cin cout radius f' := by
  obtain ⟨g, hg⟩ := NetConv.call_returns E hdev heps hL hr hin.1 hout.1 hB hin.2 hout.2 f
  obtain ⟨g', hg'⟩ := NetConv.call_returns E hdev heps hL hr hin.1 hout.1 hB hin.2 hout.2 f'
  rw [hg, hg']
  congr 1
  funext c o
  rw [C97_conv_formula E heps L hL cin cout hin.1 hr f g hg c o, C97_conv_formula E heps L hL cin cout hin.1 hr f' g' hg' c o]
  cases L with
  | mc L =>
    dsimp only
    unfold mcSpec
    refine Finset.sum_congr rfl fun p _ => Finset.sum_congr rfl fun ch hch => Finset.sum_congr rfl fun hh _ => ?_
    rw [h p ch (Finset.mem_range.1 hch)]
  | pc L =>
    dsimp only
    unfold pcSpec
    refine Finset.sum_congr rfl fun p _ => Finset.sum_congr rfl fun ch hch => Finset.sum_congr rfl fun hh _ => ?_
    rw [h p ch (Finset.mem_range.1 hch)]
  | kp L =>
    dsimp only
    have ho : ∀ wo b d, kpOffset L wo 1 cin cout radius f c b d = kpOffset L wo 1 cin cout radius f' c b d := by
      intro wo b d
      unfold kpOffset
      refine Finset.sum_congr rfl fun p _ => Finset.sum_congr rfl fun ch hch => Finset.sum_congr rfl fun hh _ => ?_
      rw [h p ch (Finset.mem_range.1 hch)]
    unfold kpSpec
    refine Finset.sum_congr rfl fun p _ => Finset.sum_congr rfl fun ch hch => Finset.sum_congr rfl fun hh _ => ?_
    rw [h p ch (Finset.mem_range.1 hch)]
    simp only [ho]

theorem gpuNetTutLoop_cons (E : NetEnv) (Ws : ℕ) (N : NetTut (k + 2)) (o o' : CloudObj (Fin (k + 2) → ℝ))
    (f : Fin o.c.n → ℕ → ℝ) (os : List (CloudObj (Fin (k + 2) → ℝ))) (l : LevelTut (k + 2)) (ls : List (LevelTut (k + 2)))
    (res : Except Err ((o : CloudObj (Fin (k + 2) → ℝ)) × (Fin o.c.n → ℕ → ℝ))) :
    gpuNetTutLoop E Ws N o f (o' :: os) (l :: ls) res ↔ ∃ r, l.conv.GpuCall E Ws o.c o'.c l.convRadius f r ∧
      match r with
      | .error e => res = .error e
      | .ok g => gpuNetTutLoop E Ws N o' (E.bnAct l.bn g) os ls res := by
  cases os <;> rfl

theorem gpuNetTutLoop_spec (hk : k ≤ 1) (E : NetEnv) (hdev : E.dev = .gpu) (heps : 0 < E.eps) {Ws : ℕ} (hW : 0 < Ws)
    {B : ℕ} (N : NetTut (k + 2)) (hlast : N.last.GpuOk E ∧ 0 < N.lastConvRadius) (levels : List (LevelTut (k + 2)))
    (hl : ∀ l ∈ levels, l.conv.GpuOk E ∧ 0 < l.convRadius) (hfit : N.FitsFrom levels) :
    ∀ (os : List (CloudObj (Fin (k + 2) → ℝ))) (o : CloudObj (Fin (k + 2) → ℝ)) (f f' : Fin o.c.n → ℕ → ℝ),
    EqTo (N.next levels).reads f f' → (∀ p ∈ o :: os, GpuCloud Ws p.c ∧ p.c.B = B) →
    ∀ res, gpuNetTutLoop E Ws N o f os levels res →
    (∃ e, res = .error e ∧ netTutLoop E N o f' os levels = .error e) ∨
    ∃ (p : CloudObj (Fin (k + 2) → ℝ)) (g g' : Fin p.c.n → ℕ → ℝ), res = .ok ⟨p, g⟩ ∧
      netTutLoop E N o f' os levels = .ok ⟨p, g'⟩ ∧ EqTo N.head.dense1.cin g g' := by
  induction levels with
  | nil =>
    intro os o f f' hff ho res h
    match os, ho, h with
    | [], _, h => exact Or.inl ⟨_, h, rfl⟩
    | [q], ho, h =>
      obtain ⟨r, h1, h⟩ := h
      have a := ho o (by simp)
      have b := ho q (by simp)
      obtain ⟨g, g', rfl, hg', hgg⟩ := NetConv.gpuCall_spec hk E hdev heps hW hlast.1 a.1 b.1 (b.2.trans a.2.symm) hlast.2 f h1
      dsimp only at h
      rw [NetConv.call_congr E hdev heps hlast.1.ok ⟨a.1.valid, a.1.pos⟩ ⟨b.1.valid, b.1.pos⟩ (b.2.trans a.2.symm) hlast.2 hff] at hg'
      refine Or.inr ⟨_, _, _, h, ?_, hgg _ hfit⟩
      unfold netTutLoop
      rw [hg']
    | _ :: _ :: _, _, h => exact Or.inl ⟨_, h, rfl⟩
  | cons l ls ih =>
    intro os o f f' hff ho res h
    cases os with
    | nil => exact Or.inl ⟨_, h, rfl⟩
    | cons q os =>
      rw [gpuNetTutLoop_cons] at h
      rw [netTutLoop_cons]
      obtain ⟨r, h1, h⟩ := h
      obtain ⟨l1, l2⟩ := hl l (by simp)
      have a := ho o (by simp)
      have b := ho q (by simp)
      obtain ⟨g, g', rfl, hg', hgg⟩ := NetConv.gpuCall_spec hk E hdev heps hW l1 a.1 b.1 (b.2.trans a.2.symm) l2 f h1
      dsimp only at h
      rw [NetConv.call_congr E hdev heps l1.ok ⟨a.1.valid, a.1.pos⟩ ⟨b.1.valid, b.1.pos⟩ (b.2.trans a.2.symm) l2 hff] at hg'
      rw [hg']
      dsimp only
      exact ih (fun l hx => hl l (by simp [hx])) hfit.2 os q _ _ ((hgg _ hfit.1).bnAct E l.bn)
        (fun p hp => ho p (by simp at hp ⊢; tauto)) res h

/-- **C140, given levels.** On given clouds every run of the network on the GPU returns what the TensorFlow
model returns, in training and at inference. -/
theorem C140_logits_partial (hk : k ≤ 1) (E : NetEnv) (hdev : E.dev = .gpu) (heps : 0 < E.eps)
    {Ws : ℕ} (hW : 0 < Ws) (N : NetTut (k + 2)) (hN : N.GpuOk E) (H : Hier k ℝ) (B : ℕ)
    (hcl : ∀ p ∈ H.clouds, GpuCloud Ws p.c ∧ p.c.B = B) (feats : List (List (ℕ → ℝ)))
    (res : Except Err (List (ℕ → ℝ))) (h : N.GpuLogits E Ws H.clouds feats res) : res = N.logits E H feats := by
  unfold NetTut.GpuLogits at h
  unfold NetTut.logits
  split at h
  swap
  · rename_i hcl'
    split
    · rename_i x0 os heq
      exact absurd heq (hcl' x0 os)
    · exact h
  rename_i o os heq
  rw [heq] at hcl ⊢
  dsimp only
  split at h
  · rename_i e he
    rw [he]
    exact h
  rename_i f0 he
  rw [he]
  dsimp only
  obtain ⟨r, h1, h⟩ := h
  rcases gpuNetTutLoop_spec hk E hdev heps hW N ⟨hN.last, hN.ok.last.2.2⟩ N.levels
    (fun l hl => ⟨hN.levels l hl, (hN.ok.levels l hl).2.2⟩) hN.fits os o f0 f0 (EqTo.refl _ _) hcl r h1 with
    ⟨e, rfl, he⟩ | ⟨n, g, g', rfl, he, hgg⟩
  · rw [he]
    exact h
  · rw [he]
    dsimp only at h ⊢
    rw [h]
    congr 2
    unfold NetHead.runTut
    rw [((globalPool_mean_congr (n := 0) hgg).bnAct E N.head.bn1).lin N.head.dense1 le_rfl]

theorem NetTut.sizes_pos {N : NetTut (k + 2)} (hN : N.Ok) :
    ∀ r ∈ N.levels.map LevelTut.sampleRadius ++ [N.lastSampleRadius], 0 < r := by
  intro r hr
  rcases List.mem_append.1 hr with hr | hr
  · obtain ⟨l, hl, rfl⟩ := List.mem_map.1 hr
    exact (hN.levels l hl).2.1
  · rw [List.mem_singleton] at hr
    rw [hr]
    exact hN.last.2.1

/-- **C140, Poisson disk sampling** (the method of the tutorial): every run on the GPU returns logits, and they
are logits the TensorFlow model may return. -/
theorem C140_poisson_partial (hk : k ≤ 1) (E : NetEnv) (hdev : E.dev = .gpu) (heps : 0 < E.eps)
    {Ws : ℕ} (hW : 0 < Ws) (N : NetTut (k + 2)) (hN : N.GpuOk E) (lower : String → String) (mode : String)
    (hm : lower mode ∈ ["poisson", "poisson disk", "poisson_disk"])
    {V : ℕ} {points : List (List (Fin (k + 2) → ℝ))} (hV : ∀ s ∈ points, s.length = V) (hVpos : 0 < V)
    (hB : points ≠ []) (hone : points.length * V ≤ 512 + Ws * 64)
    {feats : List (List (ℕ → ℝ))} (hf : feats.length = points.length) (hfV : ∀ row ∈ feats, row.length = V)
    (res : Except Err (List (ℕ → ℝ))) (h : N.GpuCall E Ws lower mode V points feats res) :
    ∃ rows, res = .ok rows ∧ N.Call E lower mode V points feats (.ok rows) := by
  have hP := paddedOk_full hV
  have hone' : (List.replicate points.length V).sum ≤ 512 + Ws * 64 := by simpa using hone
  obtain ⟨o, ho⟩ := newPadded_returns hP
  obtain ⟨p1, p2, p3, p4, p5, p6, p7⟩ := padded_input hP (fun s hs => by rw [List.eq_of_mem_replicate hs]; exact hVpos) hB ho
  have hcall : N.Call E lower mode V points feats res := by
    unfold NetTut.GpuCall at h
    unfold NetTut.Call
    rw [newPadded_noSizes, ho] at h ⊢
    dsimp only at h ⊢
    obtain ⟨r, hr, h⟩ := h
    obtain ⟨os, H, rfl, hH, hcl⟩ := C110_poisson_hierarchy_partial hW heps hm o ⟨p1, p4, by rw [p5]; exact hone', p6⟩ _
      (NetTut.sizes_pos hN.ok) r hr
    rw [← hdev] at hH
    obtain ⟨os', hcl', hlen, hos⟩ := hier_levelOk heps p1 p3 (by rw [p2]; exact List.length_pos_iff.2 hB) hH
      (netTut_pos hN.ok hH)
    rw [hcl, List.cons.injEq] at hcl'
    obtain ⟨_, rfl⟩ := hcl'
    refine Or.inr ⟨H, hH, ?_⟩
    dsimp only at h
    rw [← hcl] at h
    refine C140_logits_partial hk E hdev heps hW N hN H o.c.B ?_ feats res h
    intro p hp
    rw [hcl] at hp
    rcases List.mem_cons.1 hp with rfl | hp
    · exact ⟨⟨p1, p4, by rw [p5]; exact hone'⟩, rfl⟩
    · obtain ⟨q1, q2⟩ := hos p hp
      exact ⟨⟨q1.valid, q1.n, (n_le_of_countIn p1 q1.valid q1.batch q2).trans (by rw [p5]; exact hone')⟩, q1.batch⟩
  cases res with
  | error e =>
    exact absurd hcall ((C129_returns E hdev heps N hN.ok lower mode
      (by simp only [List.mem_cons, List.not_mem_nil, or_false] at hm ⊢; tauto) hV hVpos hB hf hfV).2 e)
  | ok rows => exact ⟨rows, rfl, hcall⟩

/-- Logits of the same shape from levels that are the same for it. -/
theorem tut_from_levels (E : NetEnv) (hE : E.training = false) (heps : 0 < E.eps) (N : NetTut (k + 2)) (hN : N.Ok)
    {o : CloudObj (Fin (k + 2) → ℝ)} {os os' : List (CloudObj (Fin (k + 2) → ℝ))} {B : ℕ}
    (h1 : ∀ p ∈ o :: os, p.c.Valid ∧ p.c.B = B) (h2 : ∀ p ∈ o :: os', p.c.Valid ∧ p.c.B = B)
    (hF : List.Forall₂ (fun p q : CloudObj (Fin (k + 2) → ℝ) => SameCloud p.c q.c) os os') {feats : List (List (ℕ → ℝ))}
    {H H' : Hier k ℝ} (hH : H.clouds = o :: os) (hH' : H'.clouds = o :: os') {rows rows' : List (ℕ → ℝ)}
    (h : N.logits E H feats = .ok rows) (h' : N.logits E H' feats = .ok rows') : rows' = rows := by
  unfold NetTut.logits at h h'
  rw [hH] at h
  rw [hH'] at h'
  dsimp only at h h'
  split at h
  · cases h
  rename_i f0 e0
  rw [e0] at h'
  dsimp only at h'
  split at h
  · cases h
  rename_i p g e1
  split at h'
  · cases h'
  rename_i p' g' e1'
  cases h
  cases h'
  have hpB := (h1 p (List.mem_of_getLast? (netTutLoop_last E N _ _ _ _ _ _ e1))).2
  have hpB' := (h2 p' (List.mem_of_getLast? (netTutLoop_last E N _ _ _ _ _ _ e1'))).2
  apply List.ext_getElem?
  intro b
  by_cases hb : b < B
  · have hbB : b < p.c.B := by omega
    have hbB' : b < p'.c.B := by omega
    obtain ⟨t, ht⟩ := netTutLoop_elem E hE heps N hN.last N.levels hN.levels os os' o o f0 f0
      (b := b) (b' := b) ⟨Equiv.refl _, fun _ => rfl⟩ (fun _ => rfl)
      (fun q hq => (h1 q hq).1) (fun q hq => (h2 q hq).1) (hF.imp (fun p q h => h.elem b)) p p' g g' e1 e1'
    rw [List.getElem?_ofFn, List.getElem?_ofFn, dif_pos hbB, dif_pos hbB']
    congr 1
    refine headTut_elem E hE N.head _ _ ⟨b, hbB⟩ ⟨b, hbB'⟩ ?_
    funext ch
    rw [C94_global_pooling t .mean hbB hbB' g g' ht ch]
  · rw [List.getElem?_eq_none (by rw [List.length_ofFn]; omega), List.getElem?_eq_none (by rw [List.length_ofFn]; omega)]

/-- **C140, cell averages**: at inference every run on the GPU returns the logits of the TensorFlow model. -/
theorem C140_average_partial (hk : k ≤ 1) (E : NetEnv) (hE : E.training = false) (hdev : E.dev = .gpu) (heps : 0 < E.eps)
    {Ws : ℕ} (hW : 0 < Ws) (N : NetTut (k + 2)) (hN : N.GpuOk E) (lower : String → String) (mode : String)
    (hm : lower mode ∈ ["average", "cell average", "cell_average"])
    {V : ℕ} {points : List (List (Fin (k + 2) → ℝ))} (hV : ∀ s ∈ points, s.length = V) (hVpos : 0 < V)
    (hB : points ≠ []) (hone : points.length * V ≤ 512 + Ws * 64) {feats : List (List (ℕ → ℝ))}
    (res : Except Err (List (ℕ → ℝ))) (h : N.GpuCall E Ws lower mode V points feats res)
    (rows : List (ℕ → ℝ)) (htf : N.Call E lower mode V points feats (.ok rows)) : res = .ok rows := by
  have hP := paddedOk_full hV
  have hone' : (List.replicate points.length V).sum ≤ 512 + Ws * 64 := by simpa using hone
  obtain ⟨o, ho⟩ := newPadded_returns hP
  obtain ⟨p1, p2, p3, p4, p5, p6, p7⟩ := padded_input hP (fun s hs => by rw [List.eq_of_mem_replicate hs]; exact hVpos) hB ho
  have hBpos : 0 < o.c.B := by rw [p2]; exact List.length_pos_iff.2 hB
  unfold NetTut.GpuCall at h
  unfold NetTut.Call at htf
  rw [newPadded_noSizes, ho] at h htf
  dsimp only at h htf
  obtain ⟨r, hr, h⟩ := h
  rcases htf with ⟨e, _, he⟩ | ⟨H, hH, htf⟩
  · cases he
  have hH' : HierNew .gpu E.eps lower mode o N.sizes (.ok H) := by rw [← hdev]; exact hH
  obtain ⟨os, os', rfl, hcl', hlen, hlv, hos, hF2⟩ := gpuAverage_levels heps hW hm ⟨p1, p4, by rw [p5]; exact hone', p6⟩ p3 hBpos
    (NetTut.sizes_pos hN.ok) hr hH'
  dsimp only at h
  have hcl2 : ∀ p ∈ o :: os, GpuCloud Ws p.c ∧ p.c.B = o.c.B := by
    intro p hp
    rcases List.mem_cons.1 hp with rfl | hp
    · exact ⟨⟨p1, p4, by rw [p5]; exact hone'⟩, rfl⟩
    · obtain ⟨q1, q2, q3⟩ := hlv p hp
      exact ⟨q3, q1.batch⟩
  have hlog := C140_logits_partial hk E hdev heps hW N hN ⟨o :: os, [], [], none⟩ o.c.B hcl2 feats res h
  have c1 : ∀ p ∈ o :: os', p.c.Valid ∧ p.c.B = o.c.B := by
    intro p hp
    rcases List.mem_cons.1 hp with rfl | hp
    · exact ⟨p1, rfl⟩
    · exact hos p hp
  obtain ⟨rows', hrows'⟩ : ∃ rows', N.logits E ⟨o :: os, [], [], none⟩ feats = .ok rows' := by
    obtain ⟨f0, e0⟩ : ∃ f0, (o.flattenFeatures feats).1 = .ok f0 := by
      unfold NetTut.logits at htf
      rw [hcl'] at htf
      dsimp only at htf
      split at htf
      · cases htf
      · rename_i f0 e0
        exact ⟨f0, e0⟩
    obtain ⟨x, e1⟩ := netTutLoop_returns E hdev heps N hN.ok.last N.levels hN.ok.levels (B := o.c.B) os o f0 (by
      intro p hp
      have := hcl2 p hp
      exact ⟨this.1.valid, this.2, this.1.pos⟩) (by rw [hlen]; simp)
    unfold NetTut.logits
    dsimp only
    rw [e0]
    dsimp only
    rw [e1]
    exact ⟨_, rfl⟩
  rw [hlog, hrows']
  exact congrArg _ (tut_from_levels E hE heps N hN.ok c1 (fun p hp => ⟨(hcl2 p hp).1.valid, (hcl2 p hp).2⟩) hF2 hcl' rfl
    htf.symm hrows')

theorem gpuNetTutLoop_runs (E : NetEnv) {Ws : ℕ} (hW : 0 < Ws) (N : NetTut (k + 2)) (hlast : 0 < N.lastConvRadius)
    (levels : List (LevelTut (k + 2))) (hl : ∀ l ∈ levels, 0 < l.convRadius) :
    ∀ (os : List (CloudObj (Fin (k + 2) → ℝ))) (o : CloudObj (Fin (k + 2) → ℝ)) (f : Fin o.c.n → ℕ → ℝ),
    (∀ p ∈ o :: os, GpuCloud Ws p.c) → ∃ res, gpuNetTutLoop E Ws N o f os levels res := by
  induction levels with
  | nil =>
    intro os o f ho
    match os, ho with
    | [], _ => exact ⟨_, rfl⟩
    | [q], ho =>
      obtain ⟨r, h⟩ := NetConv.gpu_runs E hW N.last (ho o (by simp)) (ho q (by simp)) hlast f
      cases r with
      | error e => exact ⟨_, _, h, rfl⟩
      | ok g => exact ⟨_, _, h, rfl⟩
    | _ :: _ :: _, _ => exact ⟨_, rfl⟩
  | cons l ls ih =>
    intro os o f ho
    cases os with
    | nil => exact ⟨_, rfl⟩
    | cons q os =>
      obtain ⟨r, h⟩ := NetConv.gpu_runs E hW l.conv (ho o (by simp)) (ho q (by simp)) (hl l (by simp)) f
      cases r with
      | error e => exact ⟨_, (gpuNetTutLoop_cons ..).mpr ⟨_, h, rfl⟩⟩
      | ok g =>
        obtain ⟨res, h'⟩ := ih (fun l hx => hl l (by simp [hx])) os q (E.bnAct l.bn g)
          (fun p hp => ho p (by simp at hp ⊢; tauto))
        exact ⟨res, (gpuNetTutLoop_cons ..).mpr ⟨_, h, h'⟩⟩

/-- **C140, runs exist.** -/
theorem C140_runs (E : NetEnv) (heps : 0 < E.eps) {Ws : ℕ} (hW : 0 < Ws) (N : NetTut (k + 2)) (hN : N.Ok)
    (lower : String → String) (mode : String) (hm : lower mode ∈ modeNames)
    {V : ℕ} {points : List (List (Fin (k + 2) → ℝ))} (hV : ∀ s ∈ points, s.length = V) (hVpos : 0 < V)
    (hB : points ≠ []) (hone : points.length * V ≤ 512 + Ws * 64) (feats : List (List (ℕ → ℝ))) :
    ∃ res, N.GpuCall E Ws lower mode V points feats res := by
  have hP := paddedOk_full hV
  have hone' : (List.replicate points.length V).sum ≤ 512 + Ws * 64 := by simpa using hone
  obtain ⟨o, ho⟩ := newPadded_returns hP
  obtain ⟨p1, p2, p3, p4, p5, p6, p7⟩ := padded_input hP (fun s hs => by rw [List.eq_of_mem_replicate hs]; exact hVpos) hB ho
  have hg : GpuStepOk Ws o.batchShape o.c := ⟨p1, p4, by rw [p5]; exact hone', p6⟩
  obtain ⟨r, hr⟩ := C110_runs hW heps hm _ (NetTut.sizes_pos hN) o.batchShape o hg
  obtain ⟨os, rfl, hos⟩ := gpuLevels_ok hW heps hm _ (NetTut.sizes_pos hN) o r hg hr
  have hlog : ∃ res, N.GpuLogits E Ws (o :: os) feats res := by
    unfold NetTut.GpuLogits
    have hcl : ∀ p ∈ o :: os, GpuCloud Ws p.c := by
      intro p hp
      rcases List.mem_cons.1 hp with rfl | hp
      · exact ⟨hg.valid, hg.pos, hg.one⟩
      · exact ⟨(hos p hp).valid, (hos p hp).pos, (hos p hp).one⟩
    dsimp only
    cases (o.flattenFeatures feats).1 with
    | error e => exact ⟨_, rfl⟩
    | ok f0 =>
      dsimp only
      obtain ⟨r, h⟩ := gpuNetTutLoop_runs E hW N hN.last.2.2 N.levels (fun l hl => (hN.levels l hl).2.2) os o f0 hcl
      cases r with
      | error e => exact ⟨_, _, h, rfl⟩
      | ok x => exact ⟨_, _, h, rfl⟩
  obtain ⟨res, hres⟩ := hlog
  refine ⟨res, ?_⟩
  unfold NetTut.GpuCall
  rw [newPadded_noSizes, ho]
  exact ⟨_, hr, hres⟩

/-- **C129, the head** of the network of the tutorial. -/
theorem C129_head_formula (E : NetEnv) (hE : E.training = false) (h : NetHead) {n : ℕ} (f : Fin n → ℕ → ℝ) (i : Fin n) :
    h.runTut E f i = denseSpec h.dense2 (normSpec E.lrelu h.bn2 (denseSpec h.dense1 (normSpec E.lrelu h.bn1 (f i)))) := by
  unfold NetHead.runTut
  rw [lin_denseSpec, bnAct_normSpec E hE, lin_denseSpec, bnAct_normSpec E hE]

end

theorem exTut_gpuOk : exTut.GpuOk exGpuEnv := by
  refine ⟨exTut_ok, exConv_gpuOk, ?_, ?_, le_rfl⟩
  swap
  · change exConv.Writes exConv.reads
    simp [exConv, NetConv.Writes, NetConv.reads]
  intro l hl
  simp only [exTut, List.mem_singleton] at hl
  subst hl
  exact exConv_gpuOk

/-- The hypotheses of C140 are met. -/
example : ∃ rows, exTut.GpuCall exGpuEnv 1 id "poisson" 2 [[![0, 0], ![3, 0]], [![2, 0], ![2, 5]]]
      [[fun _ => 1, fun _ => 0], [fun _ => 2, fun _ => 3]] (.ok rows) ∧
    exTut.Call exGpuEnv id "poisson" 2 [[![0, 0], ![3, 0]], [![2, 0], ![2, 5]]]
      [[fun _ => 1, fun _ => 0], [fun _ => 2, fun _ => 3]] (.ok rows) := by
  have he : 0 < exGpuEnv.eps := by norm_num [exGpuEnv, exEnv]
  have hV : ∀ s ∈ ([[![0, 0], ![3, 0]], [![2, 0], ![2, 5]]] : List (List (Fin 2 → ℝ))), s.length = 2 := by simp
  obtain ⟨res, h⟩ := C140_runs exGpuEnv he one_pos exTut exTut_ok id "poisson" (by simp [modeNames]) hV (by simp)
    (by simp) (by simp) [[fun _ => 1, fun _ => 0], [fun _ => 2, fun _ => 3]]
  obtain ⟨rows, rfl, h'⟩ := C140_poisson_partial (by omega) exGpuEnv rfl he one_pos exTut exTut_gpuOk id
    "poisson" (by simp) hV (by simp) (by simp) (by simp) rfl (by simp) res h
  exact ⟨rows, h, h'⟩

end PC
