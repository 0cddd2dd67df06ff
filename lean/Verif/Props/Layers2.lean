import Verif.Props.Layers

/-!
# Properties C41 (PointConv), C42 (MCConv channels), C73 (point order),
C74 (joint scaling)
-/

set_option linter.unusedVariables false
set_option linter.unusedSectionVars false

namespace PC

/-! ## PointConv -/

/-- Specification: the largest value of `g` over a finite set (0 if empty). -/
def maxOver {K ι : Type*} [Field K] [LinearOrder K] (s : Finset ι) (g : ι → K) : K :=
  if h : s.Nonempty then s.sup' h g else 0

section
variable {K : Type*} [Field K] [LinearOrder K]

theorem segMax_pairs {n m : ℕ} (pairs : List (Fin n × Fin m)) (P : Fin n → K) (c : Fin m) :
    (segMax (fun j : Fin pairs.length => P (pairs.get j).1) (fun j => (pairs.get j).2.val) c.val).getD 0 =
      maxOver (Finset.univ.filter (fun p => (p, c) ∈ pairs)) P := by
  unfold maxOver
  split
  · rename_i hne
    have : segMax (fun j : Fin pairs.length => P (pairs.get j).1) (fun j => (pairs.get j).2.val) c.val =
        some ((Finset.univ.filter (fun p => (p, c) ∈ pairs)).sup' hne P) := by
      rw [segMax_eq_some]
      constructor
      · obtain ⟨p, hp, he⟩ := Finset.exists_mem_eq_sup' hne P
        simp only [Finset.mem_filter, Finset.mem_univ, true_and] at hp
        obtain ⟨j, hj⟩ := List.mem_iff_get.mp hp
        refine ⟨j, by rw [hj], ?_⟩
        rw [hj, he]
      · intro j hj
        have hmem : (pairs.get j).1 ∈ Finset.univ.filter (fun p => (p, c) ∈ pairs) := by
          simp only [Finset.mem_filter, Finset.mem_univ, true_and]
          have : pairs.get j = ((pairs.get j).1, c) := Prod.ext rfl (Fin.val_injective hj)
          rw [← this]
          exact List.get_mem _ _
        exact Finset.le_sup' P hmem
    rw [this]
    rfl
  · rename_i hne
    have : segMax (fun j : Fin pairs.length => P (pairs.get j).1) (fun j => (pairs.get j).2.val) c.val = none := by
      rw [segMax_eq_none]
      intro j hj
      apply hne
      refine ⟨(pairs.get j).1, ?_⟩
      simp only [Finset.mem_filter, Finset.mem_univ, true_and]
      have : pairs.get j = ((pairs.get j).1, c) := Prod.ext rfl (Fin.val_injective hj)
      rw [← this]
      exact List.get_mem _ _
    rw [this]
    rfl

/-- The convolution of `PointConv` as a sum over neighbours. -/
theorem pcConv_eq (act : K → K) (L : PCLayer K) (D : ℕ) {n m : ℕ} (pairs : List (Fin n × Fin m))
    (hnd : pairs.Nodup) (I : Fin n → Fin m → ℕ → K) (P : Fin n → K) (f : Fin n → ℕ → K)
    (c : Fin m) (o : ℕ) :
    L.conv act D pairs (fun j => I (pairs.get j).1 (pairs.get j).2) (fun j => P (pairs.get j).1) f c o =
      ∑ p ∈ Finset.univ.filter (fun p => (p, c) ∈ pairs), ∑ ch ∈ Finset.range L.cin,
        ∑ hh ∈ Finset.range L.hid,
          f p ch * (act (∑ i ∈ Finset.range D, I p c i * L.axis i hh + L.bias hh) /
            L.pdfTransform (P p / maxOver (Finset.univ.filter (fun p => (p, c) ∈ pairs)) P)) *
            L.weights (ch * L.hid + hh) o := by
  unfold PCLayer.conv
  dsimp only
  rw [sum_range_flat, Finset.sum_comm' (t' := Finset.range L.cin) (s' := fun _ => Finset.univ.filter
    (fun p => (p, c) ∈ pairs)) (by intro x y; tauto)]
  apply Finset.sum_congr rfl
  intro ch _
  rw [Finset.sum_comm' (t' := Finset.range L.hid) (s' := fun _ => Finset.univ.filter
    (fun p => (p, c) ∈ pairs)) (by intro x y; tauto)]
  apply Finset.sum_congr rfl
  intro hh hhr
  have hlt := Finset.mem_range.mp hhr
  rw [flat_div _ hlt, flat_mod _ hlt, ← Finset.sum_mul]
  congr 1
  have := C38_basis_proj pairs hnd (fun p c b =>
    act (∑ i ∈ Finset.range D, I p c i * L.axis i b + L.bias b) /
      L.pdfTransform (P p / maxOver (Finset.univ.filter (fun p => (p, c) ∈ pairs)) P)) f c ch hh
  rw [← this]
  congr 1
  funext j b
  rw [segMax_pairs]

end

section
variable {K : Type*} [Field K] [LinearOrder K] [IsStrictOrderedRing K] [FloorRing K] {k : ℕ}

/-- Specification of the density network of `PointConv`: 16 rectified linear
units and a linear output. -/
def densityNet (w1 b1 w2 : ℕ → K) (b2 x : K) : K :=
  ∑ i ∈ Finset.range 16, max (x * w1 i + b1 i) 0 * w2 i + b2

theorem pdfTransform_eq (L : PCLayer K) (x : K) :
    L.pdfTransform x = densityNet L.pw1 L.pb1 L.pw2 L.pb2 x := rfl

/-- Specification of `PointConv`: one kernel MLP with one hidden layer,
features weighted by the inverse of the transformed density, the density being
divided by its maximum over the neighbourhood. -/
def pcSpec (ker act : K → K) (L : PCLayer K) (cin cout : Cloud (Fin (k + 2) → K)) (radius bw : K)
    (f : Fin cin.n → ℕ → K) (c : Fin cout.n) (o : ℕ) : K :=
  ∑ p ∈ nbrs cin cout radius c, ∑ ch ∈ Finset.range L.cin, ∑ hh ∈ Finset.range L.hid,
    f p ch * (act (∑ i ∈ Finset.range (k + 2),
        rowOf (fun d => cin.pts p d - cout.pts c d) i * L.axis i hh + L.bias hh) /
      densityNet L.pw1 L.pb1 L.pw2 L.pb2 (density ker cin (fun _ => bw) (fun _ => radius) p /
        maxOver (nbrs cin cout radius c) (density ker cin (fun _ => bw) (fun _ => radius)))) *
      L.weights (ch * L.hid + hh) o

/-- **C41, PointConv.** -/
theorem C41_pointconv_formula (ker act : K → K) (dev : Device) (eps : K) (L : PCLayer K)
    (cin cout : Cloud (Fin (k + 2) → K)) (radius bw : K) (hok : LayerOk cin cout radius eps)
    (f : Fin cin.n → ℕ → K) (out : Fin cout.n → ℕ → K)
    (h : L.call ker act dev eps cin cout radius bw f = .ok out) (c : Fin cout.n) (o : ℕ) :
    out c o = pcSpec ker act L cin cout radius bw f c o := by
  unfold PCLayer.call at h
  cases hl : layerNbh dev eps cin cout radius with
  | error e => rw [hl] at h; simp at h
  | ok nh =>
    rw [hl] at h
    dsimp only at h
    cases hp : (nh.runGet ker dev none ⟨fun _ => bw, .constant, false⟩).1 with
    | error e => rw [hp] at h; simp at h
    | ok pdf =>
      rw [hp] at h
      simp only [Except.ok.injEq] at h
      subst h
      obtain ⟨nb, hnh, hf⟩ := layerNbh_eq hl
      have hpdf := layer_pdf hok nh hnh bw pdf hp
      subst hnh
      refine (dif_pos c.isLt).trans ?_
      obtain ⟨h1, h2⟩ := layer_ids hok hf
      unfold PCLayer.callOn Nbh.diffs
      simp only [hpdf]
      unfold pcSpec
      have hfin : ∀ (c : Fin cout.n), Finset.univ.filter (fun p : Fin cin.n => (p, c) ∈
          (⟨⟨cin, fun _ => radius, eps⟩, fun _ => radius, cout, false, nb⟩ : Nbh k K).originalNeighIds) =
          nbrs cin cout radius c := by
        intro c
        ext p
        simp only [Finset.mem_filter, Finset.mem_univ, true_and]
        exact h1 p c
      rw [← hfin]
      refine Eq.trans ?_ (pcConv_eq act L (k + 2) _ h2
        (fun p c => rowOf (fun d => cin.pts p d - cout.pts c d))
        (fun p => density ker cin (fun _ => bw) (fun _ => radius) p) f c o)
      simp only [gatherD_fin]

/-- **C41, PointConv returns on the GPU.** -/
theorem C41_pointconv_returns (ker act : K → K) (eps : K) (L : PCLayer K)
    (cin cout : Cloud (Fin (k + 2) → K)) (radius bw : K) (hok : LayerOk cin cout radius eps)
    (hn : 0 < cout.n) (hin : 0 < cin.n) (hB : ∀ i, cout.batch i < cin.B) (f : Fin cin.n → ℕ → K) :
    ∃ out, L.call ker act .gpu eps cin cout radius bw f = .ok out := by
  obtain ⟨h, hh⟩ := layerNbh_gpu eps cin cout radius hok hn hB
  obtain ⟨l, hl⟩ := layer_pdf_gpu ker eps cin cout radius bw hok hin h hh
  unfold PCLayer.call
  rw [hh]
  dsimp only
  rw [hl]
  exact ⟨_, rfl⟩

/-- **C41, PointConv is translation invariant.** -/
theorem C41_pointconv_translation (ker act : K → K) (dev dev' : Device) (eps : K) (L : PCLayer K)
    (cin cout : Cloud (Fin (k + 2) → K)) (radius bw : K) (hok : LayerOk cin cout radius eps)
    (t : Fin (k + 2) → K) (f : Fin cin.n → ℕ → K) (out out' : Fin cout.n → ℕ → K)
    (h : L.call ker act dev eps cin cout radius bw f = .ok out)
    (h' : L.call ker act dev' eps (cin.translate t) (cout.translate t) radius bw f = .ok out') :
    out' = out := by
  funext c o
  rw [C41_pointconv_formula ker act dev eps L cin cout radius bw hok f out h c o,
    C41_pointconv_formula ker act dev' eps L (cin.translate t) (cout.translate t) radius bw
      ⟨hok.valid, hok.radius_pos, hok.eps_pos⟩ f out' h' c o]
  unfold pcSpec
  refine Finset.sum_congr (nbrs_translate cin cout radius t c) (fun p _ => Finset.sum_congr rfl
    (fun ch _ => Finset.sum_congr rfl (fun hh _ => ?_)))
  have h1 : (density ker (cin.translate t) (fun _ => bw) (fun _ => radius) : Fin cin.n → K) =
    density ker cin (fun _ => bw) (fun _ => radius) := funext (fun p => density_translate _ _ _ _ _ _)
  have h2 : (fun d => ((cin.translate t).pts p d - (cout.translate t).pts c d)) =
      fun d => (cin.pts p d - cout.pts c d) := by
    funext d
    show (cin.pts p d + t d - (cout.pts c d + t d)) = _
    rw [add_sub_add_right_eq_sub]
  have h3 : maxOver (nbrs (cin.translate t) (cout.translate t) radius c)
      (density ker (cin.translate t) (fun _ => bw) (fun _ => radius)) =
      maxOver (nbrs cin cout radius c) (density ker cin (fun _ => bw) (fun _ => radius)) :=
    congrArg₂ (maxOver (ι := Fin cin.n)) (nbrs_translate cin cout radius t c) h1
  rw [h3, h2]
  rw [show density ker (cin.translate t) (fun _ => bw) (fun _ => radius) p = _ from congrFun h1 p]

/-- **C41, PointConv is linear in the features.** -/
theorem C41_pointconv_linear (ker act : K → K) (dev : Device) (eps : K) (L : PCLayer K)
    (cin cout : Cloud (Fin (k + 2) → K)) (radius bw : K) (hok : LayerOk cin cout radius eps)
    (f g : Fin cin.n → ℕ → K) (a b : K) (outf outg out : Fin cout.n → ℕ → K)
    (hf : L.call ker act dev eps cin cout radius bw f = .ok outf)
    (hg : L.call ker act dev eps cin cout radius bw g = .ok outg)
    (h : L.call ker act dev eps cin cout radius bw (fun p x => a * f p x + b * g p x) = .ok out)
    (c : Fin cout.n) (o : ℕ) : out c o = a * outf c o + b * outg c o := by
  rw [C41_pointconv_formula ker act dev eps L _ _ radius bw hok _ out h,
    C41_pointconv_formula ker act dev eps L _ _ radius bw hok _ outf hf,
    C41_pointconv_formula ker act dev eps L _ _ radius bw hok _ outg hg]
  unfold pcSpec
  simp only [Finset.mul_sum]
  simp only [← Finset.sum_add_distrib]
  refine Finset.sum_congr rfl (fun p _ => Finset.sum_congr rfl (fun ch _ => Finset.sum_congr rfl (fun hh _ => ?_)))
  ring

end

/-! ## C42 -/

section
variable {K : Type*} [Field K]

/-- **C42, construction.** `MCConv` is constructible exactly when the number of
MLPs is positive and divides the number of output features and the MLPs have at
least one layer. -/
theorem C42_constructible (cin cout mlps : ℕ) (layers : List (MlpLayer K)) (final : ℕ → ℕ → ℕ → K) :
    (∃ L, MCLayer.new cin cout mlps layers final = .ok L) ↔ mlps ≠ 0 ∧ mlps ∣ cout ∧ layers ≠ [] := by
  unfold MCLayer.new
  by_cases h0 : mlps = 0
  · simp [h0]
  by_cases h1 : cout % mlps = 0
  · have hd : mlps ∣ cout := Nat.dvd_of_mod_eq_zero h1
    by_cases h2 : layers = []
    · simp [h0, h1, h2]
    · simp [h0, h1, h2, hd]
  · have hd : ¬ mlps ∣ cout := fun h => h1 (Nat.mod_eq_zero_of_dvd h)
    simp [h0, h1, hd]

/-- A divisibility failure is reported as `ValueError`. -/
theorem C42_value_error (cin cout mlps : ℕ) (layers : List (MlpLayer K)) (final : ℕ → ℕ → ℕ → K)
    (h : ¬ mlps ∣ cout) : MCLayer.new cin cout mlps layers final = .error .valueError := by
  unfold MCLayer.new
  by_cases h0 : mlps = 0
  · simp [h0]
  · rw [if_neg h0, if_pos]
    intro h1
    exact h (Nat.dvd_of_mod_eq_zero h1)

/-- The MLP of an existing output channel exists, and every MLP owns exactly
`cout / mlps` consecutive channels. -/
theorem C42_channel_blocks (cout mlps : ℕ) (hm : mlps ≠ 0) (hd : mlps ∣ cout) (o : ℕ) (ho : o < cout) (m : ℕ) :
    o / (cout / mlps) < mlps ∧
      (o / (cout / mlps) = m ↔ m * (cout / mlps) ≤ o ∧ o < (m + 1) * (cout / mlps)) := by
  obtain ⟨q, rfl⟩ := hd
  rw [Nat.mul_div_cancel_left _ (Nat.pos_of_ne_zero hm)]
  have hq : 0 < q := by
    rcases Nat.eq_zero_or_pos q with rfl | h
    · simp at ho
    · exact h
  constructor
  · rw [Nat.div_lt_iff_lt_mul hq]; exact ho
  · rw [Nat.div_eq_iff hq]
    constructor
    · rintro ⟨h1, h2⟩
      refine ⟨h1, ?_⟩
      rw [Nat.succ_mul]; omega
    · rintro ⟨h1, h2⟩
      refine ⟨h1, ?_⟩
      rw [Nat.succ_mul] at h2; omega

/-- The value of MLP `m` only depends on its own weights. -/
theorem mlpEval_congr (act : K → K) (m : ℕ) (prev : ℕ) (ls ls' : List (MlpLayer K))
    (h : List.Forall₂ (fun l l' => l.size = l'.size ∧ l.w m = l'.w m ∧ l.b m = l'.b m) ls ls') (x : ℕ → K) :
    mlpEval act m prev ls x = mlpEval act m prev ls' x := by
  induction h generalizing prev x with
  | nil => rfl
  | cons hd _ ih =>
    unfold mlpEval
    rw [hd.1, hd.2.1, hd.2.2]
    exact ih _ _

theorem forall₂_hid {ls ls' : List (MlpLayer K)} {m : ℕ}
    (h : List.Forall₂ (fun l l' => l.size = l'.size ∧ l.w m = l'.w m ∧ l.b m = l'.b m) ls ls') :
    (ls.getLast?.map MlpLayer.size) = (ls'.getLast?.map MlpLayer.size) := by
  have : ls.map MlpLayer.size = ls'.map MlpLayer.size := by
    induction h with
    | nil => rfl
    | cons hd _ ih => simp [hd.1, ih]
  rw [← List.getLast?_map, ← List.getLast?_map, this]

/-- **C42, block structure.** Two layers of the same shape which agree on the
weights of one MLP agree on all output channels of that MLP, whatever the other
MLPs are. -/
theorem C42_only_own_mlp (act : K → K) (L L' : MCLayer K) (D : ℕ) {n m : ℕ} (pairs : List (Fin n × Fin m))
    (hnd : pairs.Nodup) (I : Fin n → Fin m → ℕ → K) (P : Fin n → K) (f : Fin n → ℕ → K)
    (mlp : ℕ) (hcin : L.cin = L'.cin) (hcout : L.cout = L'.cout) (hmlps : L.mlps = L'.mlps)
    (hlay : List.Forall₂ (fun l l' => l.size = l'.size ∧ l.w mlp = l'.w mlp ∧ l.b mlp = l'.b mlp) L.layers L'.layers)
    (hfin : L.final mlp = L'.final mlp)
    (c : Fin m) (o : ℕ) (ho : o / (L.cout / L.mlps) = mlp) :
    L.conv act D pairs (fun j => I (pairs.get j).1 (pairs.get j).2) (fun j => P (pairs.get j).1) f c o =
    L'.conv act D pairs (fun j => I (pairs.get j).1 (pairs.get j).2) (fun j => P (pairs.get j).1) f c o := by
  rw [mcConv_eq act L D pairs hnd, mcConv_eq act L' D pairs hnd]
  have hhid : L.hid = L'.hid := by unfold MCLayer.hid; rw [forall₂_hid hlay]
  rw [← hcout, ← hmlps, ← hcin, ← hhid, ho, hfin]
  simp only [mlpEval_congr act mlp D _ _ hlay]

/-- **C42, every channel of an MLP's block is one column of its own final
matrix**: the channel `m * (cout/mlps) + o'` uses column `o'` of MLP `m`. -/
theorem C42_channel_formula (act : K → K) (L : MCLayer K) (D : ℕ) {n m : ℕ} (pairs : List (Fin n × Fin m))
    (hnd : pairs.Nodup) (I : Fin n → Fin m → ℕ → K) (P : Fin n → K) (f : Fin n → ℕ → K)
    (c : Fin m) (mlp o' : ℕ) (ho : o' < L.cout / L.mlps) :
    L.conv act D pairs (fun j => I (pairs.get j).1 (pairs.get j).2) (fun j => P (pairs.get j).1) f c
        (mlp * (L.cout / L.mlps) + o') =
      ∑ p ∈ Finset.univ.filter (fun p => (p, c) ∈ pairs), ∑ ch ∈ Finset.range L.cin,
        ∑ hh ∈ Finset.range L.hid, f p ch * (mlpEval act mlp D L.layers (I p c) hh / P p) *
          L.final mlp (ch * L.hid + hh) o' := by
  rw [mcConv_eq act L D pairs hnd, flat_div _ ho, flat_mod _ ho]

/-- Non-vacuity: 8 output features on 4 MLPs with one hidden layer of 8. -/
example : ∃ L : MCLayer ℚ, MCLayer.new 3 8 4 [⟨8, fun _ _ _ => 1, fun _ _ => 0⟩] (fun _ _ _ => 1) = .ok L :=
  (C42_constructible _ _ _ _ _).mpr ⟨by decide, by decide, by simp⟩

end
end PC
