import Verif.Metrics
import Verif.Props.Train
import Verif.Props.Nets

/-!
# C120: the reported validation accuracy and loss
-/

set_option linter.unusedVariables false
set_option linter.unusedSectionVars false

namespace PC

/-! ## Specification -/

/-- Specification: class `c` of `C` has the largest logit (the first one in case of ties). -/
def Classified (C : ℕ) (x : ℕ → ℝ) (c : ℕ) : Prop := c < C ∧ (∀ j < C, x j ≤ x c) ∧ ∀ j < c, x j < x c

/-! ## Lemmas -/

theorem argmaxRow_spec (x : ℕ → ℝ) (C : ℕ) : Classified (C + 1) x (argmaxRow x (C + 1)) := by
  induction C with
  | zero =>
    have : argmaxRow x 1 = 0 := by simp [argmaxRow]
    rw [show 0 + 1 = 1 from rfl, this]
    refine ⟨one_pos, fun j hj => ?_, fun j hj => absurd hj (by omega)⟩
    rw [show j = 0 by omega]
  | succ C ih =>
    obtain ⟨h1, h2, h3⟩ := ih
    rw [argmaxRow]
    split_ifs with h
    · refine ⟨by omega, fun j hj => ?_, fun j hj => (h2 j hj).trans_lt h⟩
      rcases Nat.lt_succ_iff_lt_or_eq.1 hj with h' | rfl
      · exact ((h2 j h').trans_lt h).le
      · exact le_rfl
    · refine ⟨by omega, fun j hj => ?_, h3⟩
      rcases Nat.lt_succ_iff_lt_or_eq.1 hj with h' | rfl
      · exact h2 j h'
      · exact not_lt.1 h

theorem argmaxRow_iff (x : ℕ → ℝ) {C : ℕ} (hC : 0 < C) (c : ℕ) : argmaxRow x C = c ↔ Classified C x c := by
  obtain ⟨C, rfl⟩ : ∃ C', C = C' + 1 := ⟨C - 1, by omega⟩
  obtain ⟨h1, h2, h3⟩ := argmaxRow_spec x C
  constructor
  · rintro rfl
    exact ⟨h1, h2, h3⟩
  · rintro ⟨g1, g2, g3⟩
    rcases lt_trichotomy (argmaxRow x (C + 1)) c with h | h | h
    · exact absurd (g3 _ h) (not_lt.2 (h2 c g1))
    · exact h
    · exact absurd (h3 _ h) (not_lt.2 (g2 _ h1))

theorem softmaxRow_lt (C : ℕ) (hC : 0 < C) (x : ℕ → ℝ) (i j : ℕ) : softmaxRow C x i < softmaxRow C x j ↔ x i < x j := by
  have hs : 0 < ∑ j ∈ Finset.range C, Real.exp (x j) :=
    Finset.sum_pos (fun j _ => Real.exp_pos _) ⟨0, Finset.mem_range.2 hC⟩
  unfold softmaxRow
  rw [div_lt_div_iff_of_pos_right hs, Real.exp_lt_exp]

/-- The probabilities are largest where the logits are. -/
theorem argmax_softmax (C : ℕ) (x : ℕ → ℝ) : argmaxRow (softmaxRow C x) C = argmaxRow x C := by
  rcases Nat.eq_zero_or_pos C with rfl | hC
  · rfl
  have : ∀ n, argmaxRow (softmaxRow C x) n = argmaxRow x n := by
    intro n
    induction n with
    | zero => rfl
    | succ n ih => rw [argmaxRow, argmaxRow, ih]; simp only [softmaxRow_lt C hC]
  exact this C

theorem chunk_flatten_val {β : Type*} (l : List β) (B n : ℕ) :
    ((List.range n).map (fun i => (l.drop (i * B)).take B)).flatten = l.take (n * B) := by
  induction n with
  | zero => simp
  | succ n ih =>
    rw [List.range_succ, List.map_append, List.flatten_append, ih]
    simp only [List.map_cons, List.map_nil, List.flatten_cons, List.flatten_nil, List.append_nil]
    rw [Nat.succ_mul, List.take_add]

theorem validate_local {call : GenBatch ℝ → Except Err (List (ℕ → ℝ)) → Prop} {loss : (ℕ → ℝ) → ℕ → ℝ} {C : ℕ}
    {lab : ℕ → ℕ} {nt : ℕ → ℕ → ℝ} {B : ℕ}
    {bs : List (GenBatch ℝ)} {ss : List (List ℕ)}
    (h : List.Forall₂ (fun b s => b.rows.map (·.2) = s.map lab ∧ s.length = B ∧
      ∀ logits, call b (.ok logits) → logits = s.map nt) bs ss)
    {m : MeanMetric × MeanMetric} {L A : ℝ} (hv : Validate call loss C m bs (.ok (L, A))) :
    L = MeanMetric.result ⟨m.1.total + (ss.map (fun s => (s.map (fun j => loss (softmaxRow C (nt j)) (lab j))).sum / (B : ℝ))).sum,
      m.1.count + ss.length⟩ ∧
    A = MeanMetric.result ⟨m.2.total + (ss.flatten.map (fun j => if argmaxRow (nt j) C = lab j then (1 : ℝ) else 0)).sum,
      m.2.count + ss.flatten.length⟩ := by
  induction h generalizing m with
  | nil =>
    generalize hR : (Except.ok (L, A) : Except Err (ℝ × ℝ)) = R at hv
    cases hv with
    | nil =>
      cases hR
      simp
  | @cons b s bs ss hbs hrest ih =>
    obtain ⟨h1, h2, h3⟩ := hbs
    generalize hR : (Except.ok (L, A) : Except Err (ℝ × ℝ)) = R at hv
    cases hv with
    | fail _ _ _ e _ => cases hR
    | cons _ _ _ logits r hcall hv =>
      subst hR
      obtain ⟨e1, e2⟩ := ih hv
      rw [e1, e2, h3 logits hcall, h1]
      have hz : ∀ (f : ℕ → (ℕ → ℝ) → ℝ) (s : List ℕ),
          List.zipWith f (s.map lab) ((s.map nt).map (softmaxRow C)) = s.map (fun j => f (lab j) (softmaxRow C (nt j))) := by
        intro f s
        rw [List.map_map, List.zipWith_map, List.zipWith_self]
        rfl
      unfold validateStep MeanMetric.update batchLoss MeanMetric.updateAccuracy
      simp only [hz, argmax_softmax, List.map_cons, List.sum_cons, List.length_cons, List.flatten_cons, List.map_append,
        List.sum_append, List.length_append, List.length_map, h2]
      push_cast
      constructor
      · congr 2 <;> ring
      · congr 2 <;> ring

/-! ## C120 -/

/-- The hypotheses about network, environment and data set. -/
structure ValOk (E : NetEnv) (N : Net40 3) (lower : String → String) (mode : String) (V : ℕ) (g : Gen ℝ) : Prop where
  inference : E.training = false
  eps : 0 < E.eps
  net : N.Ok
  mode : lower mode ∈ ["average", "cell average", "cell_average"]
  ready : g.Ready V
  plain : g.augment = false

/-- Specification: one input channel, constantly one. -/
noncomputable def oneChannel (ch : ℕ) : ℝ := if ch = 0 then 1 else 0

/-- Specification: `logits` are what the network returns for the first `V` points of a
model on its own. -/
def LogitsOf (E : NetEnv) (N : Net40 3) (lower : String → String) (mode : String) (V : ℕ) (pts : List (Fin 3 → ℝ))
    (logits : ℕ → ℝ) : Prop :=
  N.Call (k := 1) E lower mode 1 V [pts.take V] [List.replicate V oneChannel] [V] (.ok [logits])

theorem onBatch_logits {E : NetEnv} {N : Net40 3} {lower : String → String} {mode : String} {V : ℕ} {g : Gen ℝ}
    (hok : ValOk E N lower mode V g) {net : List (Fin 3 → ℝ) → ℕ → ℝ}
    (hnet : ∀ pts ∈ g.points, LogitsOf E N lower mode V pts (net pts))
    {ids : List ℕ} (hids : ∀ j ∈ ids, j < g.points.length) {i : ℕ} (hi : (i + 1) * g.B ≤ ids.length)
    {rnd : ℕ → Fin 3 → ℝ} {b : GenBatch ℝ} (hb : IsBatch g V ids i rnd b) :
    b.rows.map (·.2) = ((ids.drop (i * g.B)).take g.B).map (fun j => g.labels.getD j 0) ∧
    ((ids.drop (i * g.B)).take g.B).length = g.B ∧
    ∀ logits, N.onBatch E lower mode g.B V b (.ok logits) →
      logits = ((ids.drop (i * g.B)).take g.B).map (fun j => net (g.points.getD j [])) := by
  obtain ⟨h1, h2, h3⟩ := hb
  have hlen : ((ids.drop (i * g.B)).take g.B).length = g.B := by
    rw [List.length_take, List.length_drop]
    rw [Nat.succ_mul] at hi
    omega
  have hsl : ∀ q < g.B, ((ids.drop (i * g.B)).take g.B)[q]? = ids[i * g.B + q]? := by
    intro q hq
    rw [List.getElem?_take, if_pos hq, List.getElem?_drop]
  have hrow : ∀ q < g.B, ∃ j pts lab, ids[i * g.B + q]? = some j ∧ g.points[j]? = some pts ∧ g.labels[j]? = some lab ∧
      b.rows[q]? = some (pts.take V, lab) := by
    intro q hq
    obtain ⟨j, pts, lab, a1, a2, a3, a4⟩ := h3 q hq
    refine ⟨j, pts, lab, a1, a2, a3, ?_⟩
    rw [a4, modelRow, hok.plain]
    rfl
  refine ⟨?_, hlen, ?_⟩
  · apply List.ext_getElem?
    intro q
    rcases lt_or_ge q g.B with hq | hq
    · obtain ⟨j, pts, lab, a1, a2, a3, a4⟩ := hrow q hq
      rw [List.getElem?_map, List.getElem?_map, hsl q hq, a1, a4]
      simp [a3]
    · rw [List.getElem?_eq_none (by rw [List.length_map, h1]; exact hq),
        List.getElem?_eq_none (by rw [List.length_map, hlen]; exact hq)]
  · intro logits hl
    unfold Net40.onBatch at hl
    have hP : PaddedOk V (b.rows.map (·.1)) (List.replicate g.B V) := by
      refine ⟨by simp [h1], ?_, fun s hs => (List.eq_of_mem_replicate hs).le⟩
      intro x hx
      obtain ⟨row, hr, rfl⟩ := List.mem_map.1 hx
      obtain ⟨q, hq⟩ := List.getElem?_of_mem hr
      have hqB : q < g.B := by
        rw [← h1]
        exact (List.getElem?_eq_some_iff.1 hq).1
      obtain ⟨j, pts, lab, a1, a2, a3, a4⟩ := hrow q hqB
      rw [a4] at hq
      cases hq
      rw [List.length_take]
      exact Nat.min_eq_left (hok.ready.points pts (List.mem_of_getElem? a2))
    have hfeat : b.features.map (·.map (fun l (ch : ℕ) => l.getD ch 0)) =
        List.replicate g.B (List.replicate V oneChannel) := by
      rw [h2, List.map_replicate, List.map_replicate]
      congr 2
      funext ch
      cases ch <;> simp [oneChannel]
    rw [hfeat] at hl
    have hconst : ∀ row ∈ List.replicate g.B (List.replicate V oneChannel), ∀ x ∈ row, x = oneChannel := by
      intro row hr x hx
      rw [List.eq_of_mem_replicate hr] at hx
      exact List.eq_of_mem_replicate hx
    have hlog : logits.length = g.B := by
      rw [(C97_logits_of_a_shape (k := 1) E hok.inference hok.eps N hok.net lower mode hok.mode hP hP oneChannel hconst
        hconst hl hl).1, List.length_map, h1]
    apply List.ext_getElem?
    intro q
    rcases lt_or_ge q g.B with hq | hq
    swap
    · rw [List.getElem?_eq_none (by rw [hlog]; exact hq),
        List.getElem?_eq_none (by rw [List.length_map, hlen]; exact hq)]
    obtain ⟨j, pts, lab, a1, a2, a3, a4⟩ := hrow q hq
    have hmem : pts ∈ g.points := List.mem_of_getElem? a2
    have hP' : PaddedOk V [pts.take V] [V] := by
      refine ⟨rfl, ?_, by simp⟩
      intro x hx
      rw [List.mem_singleton.1 hx, List.length_take]
      exact Nat.min_eq_left (hok.ready.points pts hmem)
    have := (C97_logits_of_a_shape (k := 1) E hok.inference hok.eps N hok.net lower mode hok.mode hP' hP oneChannel
      (by
        intro row hr x hx
        rw [List.mem_singleton.1 hr] at hx
        exact List.eq_of_mem_replicate hx) hconst (hnet pts hmem) hl).2 0 q (by simp)
      (by rw [List.length_map, h1]; exact hq) (by
        rw [List.getD_eq_getElem?_getD, List.getD_eq_getElem?_getD, List.getD_eq_getElem?_getD, List.getD_eq_getElem?_getD,
          List.getElem?_map, a4, List.getElem?_replicate, if_pos hq]
        simp)
    rw [this, List.getElem?_map, hsl q hq, a1]
    simp [a2]

open scoped Classical in
/-- **C120, whatever the number of models**: the accuracy is the fraction of correctly
classified models and the loss the mean loss, over the first `⌊n/B⌋ · B` models of the
random order. -/
theorem C120_used {E : NetEnv} {N : Net40 3} {lower : String → String} {mode : String} {V : ℕ} {g : Gen ℝ}
    (hok : ValOk E N lower mode V g) (loss : (ℕ → ℝ) → ℕ → ℝ) {C : ℕ} (hC : 0 < C)
    {net : List (Fin 3 → ℝ) → ℕ → ℝ} (hnet : ∀ pts ∈ g.points, LogitsOf E N lower mode V pts (net pts))
    (hn : g.B ≤ g.points.length) (rnd : ℕ → ℕ → Fin 3 → ℝ) {L A : ℝ}
    (h : N.Validation E lower mode loss C V g rnd (.ok (L, A))) :
    ∃ used : Finset ℕ, used = (g.order.take (g.points.length / g.B * g.B)).toFinset ∧
      used ⊆ Finset.range g.points.length ∧ used.card = g.points.length / g.B * g.B ∧ 0 < used.card ∧
      A = (used.filter (fun j => Classified C (net (g.points.getD j [])) (g.labels.getD j 0))).card / used.card ∧
      L = (∑ j ∈ used, loss (softmaxRow C (net (g.points.getD j []))) (g.labels.getD j 0)) / used.card := by
  have hlen := Gen.order_length hok.ready
  have hB := hok.ready.pos
  have hq : 0 < g.points.length / g.B := Nat.div_pos hn hB
  have hle : g.points.length / g.B * g.B ≤ g.points.length := Nat.div_mul_le_self _ _
  have hnd : (g.order.take (g.points.length / g.B * g.B)).Nodup :=
    ((hok.ready.perm.nodup_iff.2 List.nodup_range)).sublist (List.take_sublist _ _)
  have hlt : ∀ j ∈ g.order.take (g.points.length / g.B * g.B), j < g.points.length :=
    fun j hj => Gen.order_lt hok.ready j (List.mem_of_mem_take hj)
  have hcard : (g.order.take (g.points.length / g.B * g.B)).toFinset.card = g.points.length / g.B * g.B := by
    rw [List.toFinset_card_of_nodup hnd, List.length_take, hlen]
    exact Nat.min_eq_left hle
  have hl0 : (g.order.take (g.points.length / g.B * g.B)).length = g.points.length / g.B * g.B := by
    rw [List.length_take, hlen]
    exact Nat.min_eq_left hle
  refine ⟨_, rfl, ?_, hcard, by rw [hcard]; exact Nat.mul_pos hq hB, ?_⟩
  · intro j hj
    exact Finset.mem_range.2 (hlt j (List.mem_toFinset.1 hj))
  obtain ⟨bs, e1, e2, e3⟩ := collect_range g.len (fun i => g.getItem V i (rnd i))
    (fun i b => IsBatch g V (g.order.take (g.len * g.B)) i (rnd i) b) (by
      intro i hi
      obtain ⟨b, e1, e2⟩ := Gen.getItem_ok hok.ready i hi (rnd i)
      exact ⟨b, e1, e2.take hi⟩)
  unfold Net40.Validation at h
  rw [show g.pass V rnd = .ok bs from e1] at h
  dsimp only at h
  change ∀ i < g.points.length / g.B, ∃ b, bs[i]? = some b ∧
    IsBatch g V (g.order.take (g.points.length / g.B * g.B)) i (rnd i) b at e3
  change bs.length = g.points.length / g.B at e2
  generalize hids : g.order.take (g.points.length / g.B * g.B) = ids at *
  have hF : List.Forall₂ (fun (b : GenBatch ℝ) (s : List ℕ) => b.rows.map (·.2) = s.map (fun j => g.labels.getD j 0) ∧
      s.length = g.B ∧ ∀ logits, N.onBatch E lower mode g.B V b (.ok logits) →
        logits = s.map (fun j => net (g.points.getD j [])))
      bs ((List.range (g.points.length / g.B)).map (fun i => (ids.drop (i * g.B)).take g.B)) := by
    rw [List.forall₂_iff_get]
    refine ⟨by simp [e2], fun i hi1 hi2 => ?_⟩
    have hi : i < g.points.length / g.B := by rw [← e2]; exact hi1
    obtain ⟨b, hb1, hb2⟩ := e3 i hi
    have hbe : bs.get ⟨i, hi1⟩ = b := by
      rw [List.get_eq_getElem]
      exact (List.getElem?_eq_some_iff.1 hb1).2
    rw [hbe]
    simp only [List.get_eq_getElem, List.getElem_map, List.getElem_range]
    exact onBatch_logits hok hnet hlt (by rw [hl0]; exact Nat.mul_le_mul_right _ hi) hb2
  obtain ⟨r1, r2⟩ := validate_local hF h
  have hfl : ((List.range (g.points.length / g.B)).map (fun i => (ids.drop (i * g.B)).take g.B)).flatten = ids := by
    rw [chunk_flatten_val, ← hl0, List.take_length]
  have hsum : ∀ f : ℕ → ℝ, (ids.map f).sum = ∑ j ∈ ids.toFinset, f j := fun f => (List.sum_toFinset f hnd).symm
  have hne : ((g.points.length / g.B * g.B : ℕ) : ℝ) ≠ 0 := by
    exact_mod_cast (Nat.mul_pos hq hB).ne'
  constructor
  · rw [r2, hfl, hl0, hcard]
    unfold MeanMetric.result MeanMetric.new
    simp only [zero_add]
    rw [if_neg hne, hsum]
    congr 1
    rw [Finset.card_filter, Nat.cast_sum]
    refine Finset.sum_congr rfl (fun j _ => ?_)
    simp only [argmaxRow_iff _ hC]
    split_ifs <;> simp
  · rw [r1, hcard]
    unfold MeanMetric.result MeanMetric.new
    simp only [zero_add, List.length_map, List.length_range]
    have hq' : ((g.points.length / g.B : ℕ) : ℝ) ≠ 0 := by exact_mod_cast hq.ne'
    have hB' : (g.B : ℝ) ≠ 0 := by exact_mod_cast hB.ne'
    rw [if_neg hq', ← hsum, ← hfl, List.map_flatten, List.sum_flatten, List.map_map, List.map_map, List.map_map]
    rw [hfl]
    have : ∀ (l : List ℕ) (F : ℕ → ℝ) (c : ℝ), (l.map (fun i => F i / c)).sum = (l.map F).sum / c := by
      intro l F c
      induction l with
      | nil => simp
      | cons x l ih => simp only [List.map_cons, List.sum_cons, ih, add_div]
    rw [show ((fun s : List ℕ => (s.map (fun j => loss (softmaxRow C (net (g.points.getD j []))) (g.labels.getD j 0))).sum /
      (g.B : ℝ)) ∘ fun i => (ids.drop (i * g.B)).take g.B) = fun i => (((ids.drop (i * g.B)).take g.B).map
        (fun j => loss (softmaxRow C (net (g.points.getD j []))) (g.labels.getD j 0))).sum / (g.B : ℝ) from rfl, this]
    rw [div_div, mul_comm (g.B : ℝ)]
    push_cast
    rfl

open scoped Classical in
/-- **C120, in part: if the batch size divides the number of models.** The reported
accuracy is the fraction of the models that the network classifies correctly when shown
one at a time, and the reported loss is the mean of their losses; neither depends on the
random order.  Missing: other numbers of models, see `C120_all_models_false`. -/
theorem C120_validation_partial {E : NetEnv} {N : Net40 3} {lower : String → String} {mode : String} {V : ℕ} {g : Gen ℝ}
    (hok : ValOk E N lower mode V g) (loss : (ℕ → ℝ) → ℕ → ℝ) {C : ℕ} (hC : 0 < C)
    {net : List (Fin 3 → ℝ) → ℕ → ℝ} (hnet : ∀ pts ∈ g.points, LogitsOf E N lower mode V pts (net pts))
    (hn : g.points ≠ []) (hdiv : g.B ∣ g.points.length) (rnd : ℕ → ℕ → Fin 3 → ℝ) {L A : ℝ}
    (h : N.Validation E lower mode loss C V g rnd (.ok (L, A))) :
    A = ((Finset.range g.points.length).filter
        (fun j => Classified C (net (g.points.getD j [])) (g.labels.getD j 0))).card / g.points.length ∧
      L = (∑ j ∈ Finset.range g.points.length, loss (softmaxRow C (net (g.points.getD j []))) (g.labels.getD j 0)) /
        g.points.length := by
  obtain ⟨used, -, h2, h3, -, h5, h6⟩ := C120_used hok loss hC hnet (Nat.le_of_dvd (List.length_pos_iff.2 hn) hdiv) rnd h
  rw [Nat.div_mul_cancel hdiv] at h3
  have hu : used = Finset.range g.points.length :=
    Finset.eq_of_subset_of_card_le h2 (by rw [h3, Finset.card_range])
  rw [hu, Finset.card_range] at h5 h6
  exact ⟨h5, h6⟩

/-- The features of a batch of the generator are ones. -/
theorem oneChannel_map (B V : ℕ) :
    (List.replicate B (List.replicate V [(1 : ℝ)])).map (·.map (fun l (ch : ℕ) => l.getD ch 0)) =
      List.replicate B (List.replicate V oneChannel) := by
  rw [List.map_replicate, List.map_replicate]
  congr 2
  funext ch
  cases ch <;> simp [oneChannel]

/-- **C120, no exception**: on the GPU, with at least one point per model, the validation
loop has a result and no possible result is an exception; neither has the network on a
single model. -/
theorem C120_returns {E : NetEnv} {N : Net40 3} {lower : String → String} {mode : String} {V : ℕ} {g : Gen ℝ}
    (hok : ValOk E N lower mode V g) (hdev : E.dev = .gpu) (hV : 0 < V) (loss : (ℕ → ℝ) → ℕ → ℝ) (C : ℕ)
    (rnd : ℕ → ℕ → Fin 3 → ℝ) :
    (∃ net : List (Fin 3 → ℝ) → ℕ → ℝ, ∀ pts ∈ g.points, LogitsOf E N lower mode V pts (net pts)) ∧
    (∃ L A, N.Validation E lower mode loss C V g rnd (.ok (L, A))) ∧
    ∀ e, ¬ N.Validation E lower mode loss C V g rnd (.error e) := by
  have hm : lower mode ∈ ["poisson", "poisson disk", "poisson_disk", "average", "cell average", "cell_average"] := by
    have := hok.mode
    simp only [List.mem_cons, List.not_mem_nil, or_false] at this ⊢
    tauto
  refine ⟨?_, ?_⟩
  · have : ∀ pts : List (Fin 3 → ℝ), ∃ x : ℕ → ℝ, pts ∈ g.points → LogitsOf E N lower mode V pts x := by
      intro pts
      by_cases hp : pts ∈ g.points
      swap
      · exact ⟨fun _ => 0, fun h => absurd h hp⟩
      have hP : PaddedOk V [pts.take V] [V] := by
        refine ⟨rfl, ?_, by simp⟩
        intro x hx
        rw [List.mem_singleton.1 hx, List.length_take]
        exact Nat.min_eq_left (hok.ready.points pts hp)
      obtain ⟨rows, hrows⟩ := (C97_returns (k := 1) E hdev hok.eps N hok.net lower mode hm hP (by simpa using hV) (by simp)
        (feats := [List.replicate V oneChannel]) (by simp) (by simp)).1
      have hl := (C97_logits_of_a_shape (k := 1) E hok.inference hok.eps N hok.net lower mode hok.mode hP hP oneChannel
        (by
          intro row hr x hx
          rw [List.mem_singleton.1 hr] at hx
          exact List.eq_of_mem_replicate hx)
        (by
          intro row hr x hx
          rw [List.mem_singleton.1 hr] at hx
          exact List.eq_of_mem_replicate hx) hrows hrows).1
      obtain ⟨x, rfl⟩ := List.length_eq_one_iff.1 hl
      exact ⟨x, fun _ => hrows⟩
    choose net hnet using this
    exact ⟨net, hnet⟩
  · obtain ⟨bs, e1, e2, ids, _, _, _, e3⟩ := C90_pass g V hok.ready rnd
    have hb : ∀ b ∈ bs, (∃ rows, N.onBatch E lower mode g.B V b (.ok rows)) ∧
        ∀ e, ¬ N.onBatch E lower mode g.B V b (.error e) := by
      intro b hb
      obtain ⟨i, hi⟩ := List.getElem?_of_mem hb
      have hi' : i < g.points.length / g.B := by rw [← e2]; exact (List.getElem?_eq_some_iff.1 hi).1
      obtain ⟨b', hb', h1, h2, h3⟩ := e3 i hi'
      rw [hi] at hb'
      cases hb'
      have hP : PaddedOk V (b.rows.map (·.1)) (List.replicate g.B V) := by
        refine ⟨by simp [h1], ?_, fun s hs => (List.eq_of_mem_replicate hs).le⟩
        intro x hx
        obtain ⟨row, hr, rfl⟩ := List.mem_map.1 hx
        obtain ⟨q, hq⟩ := List.getElem?_of_mem hr
        have hqB : q < g.B := by
          rw [← h1]
          exact (List.getElem?_eq_some_iff.1 hq).1
        obtain ⟨j, pts, lab, a1, a2, a3, a4⟩ := h3 q hqB
        rw [a4] at hq
        cases hq
        rw [modelRow, hok.plain]
        simp only [Bool.false_eq_true, if_false, List.length_take]
        exact Nat.min_eq_left (hok.ready.points pts (List.mem_of_getElem? a2))
      have := C97_returns (k := 1) E hdev hok.eps N hok.net lower mode hm hP
        (fun s hs => by rw [List.eq_of_mem_replicate hs]; exact hV)
        (by
          intro h0
          have := hok.ready.pos
          rw [← h1, ← List.length_map (f := (·.1)), h0] at this
          simp at this)
        (feats := List.replicate g.B (List.replicate V oneChannel)) (by simp [h1])
        (fun row hr => by rw [List.eq_of_mem_replicate hr, List.length_replicate])
      unfold Net40.onBatch
      rw [h2, oneChannel_map]
      rwa [List.length_map, h1] at this
    unfold Net40.Validation
    rw [e1]
    dsimp only
    generalize ((MeanMetric.new, MeanMetric.new) : MeanMetric × MeanMetric) = m
    clear e1 e2 e3
    induction bs generalizing m with
    | nil =>
      refine ⟨⟨_, _, .nil m⟩, fun e he => ?_⟩
      generalize hR : (Except.error e : Except Err (ℝ × ℝ)) = R at he
      cases he
      cases hR
    | cons b bs ih =>
      obtain ⟨⟨rows, hrows⟩, hno⟩ := hb b (by simp)
      have ih := fun m => ih (fun b hb' => hb b (by simp [hb'])) m
      constructor
      · obtain ⟨L, A, h⟩ := (ih (validateStep loss C m (b.rows.map (·.2)) rows)).1
        exact ⟨L, A, .cons m b bs rows _ hrows h⟩
      · intro e he
        generalize hR : (Except.error e : Except Err (ℝ × ℝ)) = R at he
        cases he with
        | fail _ _ _ e' he' => exact hno e' he'
        | cons _ _ _ logits r _ hv =>
          subst hR
          exact (ih _).2 e hv

/-! ## The other numbers of models -/

/-- A convolution in three dimensions. -/
def exConv3 : NetConv 3 := .mc ⟨1, 2, 1, [⟨8, fun _ _ _ => 1, fun _ _ => 0⟩], fun _ _ _ => 1⟩
/-- A block in three dimensions. -/
noncomputable def exBlock3 (strided : Bool) : NetBlock 3 :=
  ⟨exNorm, exLin, exNorm, exConv3, exNorm, exLin, strided, some (exNorm, exLin)⟩
/-- A network in three dimensions with two levels. -/
noncomputable def exNet3 : Net40 3 :=
  ⟨exConv3, exBlock3 false, 1 / 10, 1 / 5, [⟨exBlock3 true, exBlock3 false, 1 / 5, 2 / 5⟩], ⟨exNorm, exLin, exNorm, exLin⟩⟩

theorem exNet3_ok : exNet3.Ok := by
  refine ⟨trivial, ⟨trivial, rfl⟩, ⟨?_, ?_⟩, ?_⟩
  · norm_num [exNet3]
  · norm_num [exNet3]
  · intro l hl
    simp only [exNet3, List.mem_singleton] at hl
    subst hl
    exact ⟨trivial, rfl, trivial, rfl, by norm_num, by norm_num⟩

/-- Three times the same model (two points), with the given labels and order. -/
noncomputable abbrev sameModels (labels order : List ℕ) (B : ℕ) : Gen ℝ :=
  ⟨[[![0, 0, 0], ![1, 0, 0]], [![0, 0, 0], ![1, 0, 0]], [![0, 0, 0], ![1, 0, 0]]], labels, B, false, order, 0⟩

theorem sameModels_ok (labels order : List ℕ) (B : ℕ) (hl : labels.length = 3) (ho : order.Perm (List.range 3)) (hB : 0 < B) :
    ValOk exEnv exNet3 id "average" 2 (sameModels labels order B) :=
  ⟨rfl, by norm_num [exEnv], exNet3_ok, by simp, ⟨ho, hl, by simp, hB⟩, rfl⟩

/-- The hypotheses of C120 are met: three models in batches of three, whatever the order. -/
example (order : List ℕ) (ho : order.Perm (List.range 3)) (rnd : ℕ → ℕ → Fin 3 → ℝ) (loss : (ℕ → ℝ) → ℕ → ℝ) :
    ∃ L A, exNet3.Validation exEnv id "average" loss 2 2 (sameModels [0, 1, 0] order 3) rnd (.ok (L, A)) :=
  (C120_returns (sameModels_ok [0, 1, 0] order 3 rfl ho (by norm_num)) rfl (by norm_num) loss 2 rnd).2.1

open scoped Classical in
/-- **C120 is false in general**: if the batch size does not divide the number of models,
the last models of the random order are left out (4 of the 2468 test models of the script
with batches of 16), and the reported accuracy depends on the order. -/
theorem C120_all_models_false : ¬ ∀ (E : NetEnv) (N : Net40 3) (lower : String → String) (mode : String) (V C : ℕ)
    (_ : 0 < C) (loss : (ℕ → ℝ) → ℕ → ℝ) (g g' : Gen ℝ) (_ : ValOk E N lower mode V g) (_ : ValOk E N lower mode V g')
    (_ : g.points = g'.points) (_ : g.labels = g'.labels) (_ : g.B = g'.B) (_ : g.B ≤ g.points.length)
    (rnd rnd' : ℕ → ℕ → Fin 3 → ℝ) (L A L' A' : ℝ),
    N.Validation E lower mode loss C V g rnd (.ok (L, A)) → N.Validation E lower mode loss C V g' rnd' (.ok (L', A')) →
    A = A' := by
  intro H
  obtain ⟨net, hnet⟩ := (C120_returns (sameModels_ok [0, 0, 0] [0, 1, 2] 2 rfl (by decide) (by norm_num)) rfl
    (by norm_num) (fun _ _ => 0) 2 (fun _ _ _ => 0)).1
  generalize hc : argmaxRow (net [![0, 0, 0], ![1, 0, 0]]) 2 = c
  have hok := sameModels_ok [c, c, c + 1] [0, 1, 2] 2 rfl (by decide) (by norm_num)
  have hok' := sameModels_ok [c, c, c + 1] [0, 2, 1] 2 rfl (by decide) (by norm_num)
  have hcl : ∀ l, Classified 2 (net [![0, 0, 0], ![1, 0, 0]]) l ↔ c = l := by
    intro l
    rw [← argmaxRow_iff _ (by norm_num), hc]
  obtain ⟨L, A, h⟩ := (C120_returns hok rfl (by norm_num) (fun _ _ => 0) 2 (fun _ _ _ => 0)).2.1
  obtain ⟨L', A', h'⟩ := (C120_returns hok' rfl (by norm_num) (fun _ _ => 0) 2 (fun _ _ _ => 0)).2.1
  have hA := H _ _ _ _ _ 2 (by norm_num) _ _ _ hok hok' rfl rfl rfl (by simp) _ _ _ _ _ _ h h'
  obtain ⟨u, u1, -, u3, -, u5, -⟩ := C120_used hok (fun _ _ => 0) (by norm_num) hnet (by simp) _ h
  obtain ⟨u', u1', -, u3', -, u5', -⟩ := C120_used hok' (fun _ _ => 0) (by norm_num) hnet (by simp) _ h'
  have e1 : u = {0, 1} := u1.trans (by simp)
  have e2 : u' = {0, 2} := u1'.trans (by simp)
  subst e1 e2
  have f1 : (({0, 1} : Finset ℕ).filter (fun j => Classified 2
      (net ([[![0, 0, 0], ![1, 0, 0]], [![0, 0, 0], ![1, 0, 0]], [![0, 0, 0], ![1, 0, 0]]].getD j []))
      ([c, c, c + 1].getD j 0))) = {0, 1} := by
    apply Finset.filter_true_of_mem
    intro j hj
    simp only [Finset.mem_insert, Finset.mem_singleton] at hj
    rcases hj with rfl | rfl <;> exact (hcl c).2 rfl
  have f2 : (({0, 2} : Finset ℕ).filter (fun j => Classified 2
      (net ([[![0, 0, 0], ![1, 0, 0]], [![0, 0, 0], ![1, 0, 0]], [![0, 0, 0], ![1, 0, 0]]].getD j []))
      ([c, c, c + 1].getD j 0))) = {0} := by
    ext j
    simp only [Finset.mem_filter, Finset.mem_insert, Finset.mem_singleton]
    constructor
    · rintro ⟨rfl | rfl, h⟩
      · rfl
      · have := (hcl (c + 1)).1 h
        omega
    · rintro rfl
      exact ⟨Or.inl rfl, (hcl c).2 rfl⟩
  rw [f1] at u5
  rw [f2] at u5'
  rw [hA, u5'] at u5
  norm_num at u5

/-- **C120, fewer models than one batch**: the loop has no iterations, and loss and accuracy are reported as zero, whatever
the network. -/
theorem C120_no_batch {E : NetEnv} {N : Net40 3} {lower : String → String} {mode : String} {V C : ℕ} {g : Gen ℝ}
    (loss : (ℕ → ℝ) → ℕ → ℝ) (hn : g.points.length < g.B) (rnd : ℕ → ℕ → Fin 3 → ℝ) (r : Except Err (ℝ × ℝ)) :
    N.Validation E lower mode loss C V g rnd r ↔ r = .ok (0, 0) := by
  have hl : g.len = 0 := Nat.div_eq_of_lt hn
  have hp : g.pass V rnd = .ok [] := by
    unfold Gen.pass
    rw [hl]
    rfl
  unfold Net40.Validation
  rw [hp]
  dsimp only
  have hz : (MeanMetric.new).result = 0 := if_pos rfl
  constructor
  · intro h
    cases h
    rw [hz]
  · rintro rfl
    have := Validate.nil (call := N.onBatch E lower mode g.B V) (loss := loss) (C := C) (MeanMetric.new, MeanMetric.new)
    dsimp only at this
    rwa [hz] at this

example (g : Gen ℝ) (h : g.points = []) (hB : g.B = 16) : g.points.length < g.B := by
  rw [h, hB]
  decide

end PC
