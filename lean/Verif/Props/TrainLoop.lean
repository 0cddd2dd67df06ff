import Verif.TrainLoop
import Verif.Props.Metrics

/-!
# C132, C133: checkpoints of the training loop

C132: the checkpoints in the directory belong to the reported results, at every
point where the process may end.  C133: training that is resumed from a checkpoint.
-/

set_option linter.unusedVariables false
set_option linter.unusedSectionVars false

namespace PC

section
variable {W O β : Type*}

/-! ## Specification -/

/-- Specification: variables and optimiser after some batches. -/
def afterBatches (T : TrainEnv W O β) (s : W × O) : List β → W × O
  | [] => s
  | b :: bs => afterBatches T (T.step (T.forward s.1 b).2 s.2 b) bs

/-- Specification: variables and optimiser after `e` epochs. -/
def afterEpochs (T : TrainEnv W O β) (train : ℕ → List β) (s : W × O) : ℕ → W × O
  | 0 => s
  | e + 1 => afterBatches T (afterEpochs T train s e) (train e)

open scoped Classical in
/-- Specification: mean of the mean losses of the batches, and the fraction of shapes
whose class has the largest logit; `rows` are the labels and logits of the batches. -/
noncomputable def score (loss : (ℕ → ℝ) → ℕ → ℝ) (C : ℕ) (rows : List (List ℕ × List (ℕ → ℝ))) : ℝ × ℝ :=
  ((rows.map (fun r => ((r.1.zip r.2).map (fun q => loss (softmaxRow C q.2) q.1)).sum / (r.1.length : ℝ))).sum /
      (rows.length : ℝ),
    ((rows.map (fun r => ((r.1.zip r.2).countP (fun q => Classified C q.2 q.1)))).sum : ℝ) /
      ((rows.map (fun r => r.1.length)).sum : ℝ))

/-- Specification: labels and logits of the validation of the variables `w`. -/
def testRows (T : TrainEnv W O β) (w : W) (bs : List β) : List (List ℕ × List (ℕ → ℝ)) :=
  bs.map (fun b => (T.labels b, T.infer w b))

/-- Specification: labels and logits met in training: every batch is evaluated with the
variables left by the batches before it. -/
def trainRows (T : TrainEnv W O β) (s : W × O) : List β → List (List ℕ × List (ℕ → ℝ))
  | [] => []
  | b :: bs => (T.labels b, (T.forward s.1 b).1) :: trainRows T (T.step (T.forward s.1 b).2 s.2 b) bs

/-! ## Lemmas -/

theorem run_append (T : TrainEnv W O β) (s : LoopState W O) (a b : List (LoopEv β)) :
    s.run T (a ++ b) = (s.run T a).run T b := by
  unfold LoopState.run
  rw [List.foldl_append]

/-- Metrics after batches with given labels and logits. -/
noncomputable def metricsOf (loss : (ℕ → ℝ) → ℕ → ℝ) (C : ℕ) (m : MeanMetric × MeanMetric)
    (rows : List (List ℕ × List (ℕ → ℝ))) : MeanMetric × MeanMetric :=
  rows.foldl (fun m r => validateStep loss C m r.1 r.2) m

theorem run_train (T : TrainEnv W O β) (bs : List β) (s : LoopState W O) :
    s.run T (bs.map .train) = { s with
      w := (afterBatches T (s.w, s.o) bs).1, o := (afterBatches T (s.w, s.o) bs).2,
      m := metricsOf T.loss T.C s.m (trainRows T (s.w, s.o) bs) } := by
  induction bs generalizing s with
  | nil => rfl
  | cons b bs ih =>
    rw [List.map_cons, show s.run T (LoopEv.train b :: bs.map .train) =
      (s.exec T (.train b)).run T (bs.map .train) from rfl, ih]
    rfl

theorem run_test (T : TrainEnv W O β) (bs : List β) (s : LoopState W O) :
    s.run T (bs.map .test) = { s with m := metricsOf T.loss T.C s.m (testRows T s.w bs) } := by
  induction bs generalizing s with
  | nil => rfl
  | cons b bs ih =>
    rw [List.map_cons, show s.run T (LoopEv.test b :: bs.map .test) =
      (s.exec T (.test b)).run T (bs.map .test) from rfl, ih]
    rfl

open scoped Classical in
theorem zip_correct {C : ℕ} (hC : 0 < C) (ls : List ℕ) (xs : List (ℕ → ℝ)) :
    (List.zipWith (fun l x => if argmaxRow x C = l then (1 : ℝ) else 0) ls (xs.map (softmaxRow C))).sum =
      ((ls.zip xs).countP (fun q => Classified C q.2 q.1) : ℝ) := by
  induction ls generalizing xs with
  | nil => simp
  | cons l ls ih =>
    cases xs with
    | nil => simp
    | cons x xs =>
      rw [List.map_cons, List.zipWith_cons_cons, List.sum_cons, ih, List.zip_cons_cons, List.countP_cons,
        argmax_softmax]
      by_cases h : Classified C x l
      · rw [if_pos ((argmaxRow_iff x hC l).2 h)]
        simp [h, add_comm]
      · rw [if_neg (fun h' => h ((argmaxRow_iff x hC l).1 h'))]
        simp [h]

open scoped Classical in
theorem metricsOf_eq (loss : (ℕ → ℝ) → ℕ → ℝ) {C : ℕ} (hC : 0 < C) (rows : List (List ℕ × List (ℕ → ℝ)))
    (m : MeanMetric × MeanMetric) :
    metricsOf loss C m rows =
      (⟨m.1.total + (rows.map (fun r => ((r.1.zip r.2).map (fun q => loss (softmaxRow C q.2) q.1)).sum /
          (r.1.length : ℝ))).sum, m.1.count + rows.length⟩,
       ⟨m.2.total + ((rows.map (fun r => ((r.1.zip r.2).countP (fun q => Classified C q.2 q.1)))).sum : ℕ),
        m.2.count + ((rows.map (fun r => r.1.length)).sum : ℕ)⟩) := by
  induction rows generalizing m with
  | nil => simp [metricsOf]
  | cons r rows ih =>
    rw [metricsOf, List.foldl_cons]
    change metricsOf loss C _ rows = _
    rw [ih]
    unfold validateStep MeanMetric.update MeanMetric.updateAccuracy batchLoss
    have hz : List.zipWith (fun l x => loss x l) r.1 (r.2.map (softmaxRow C)) =
        (r.1.zip r.2).map (fun q => loss (softmaxRow C q.2) q.1) := by
      rw [List.zip, List.map_zipWith, List.zipWith_map_right]
    simp only [List.map_cons, List.sum_cons, List.length_cons, zip_correct hC, hz]
    push_cast
    refine Prod.ext ?_ ?_ <;> simp only [MeanMetric.mk.injEq] <;> constructor <;> ring

theorem result_eq (t c : ℝ) : MeanMetric.result ⟨t, c⟩ = t / c := by
  unfold MeanMetric.result
  split
  · next h => simp only at h; rw [h, div_zero]
  · rfl

theorem score_eq (loss : (ℕ → ℝ) → ℕ → ℝ) {C : ℕ} (hC : 0 < C) (rows : List (List ℕ × List (ℕ → ℝ))) :
    ((metricsOf loss C (.new, .new) rows).1.result, (metricsOf loss C (.new, .new) rows).2.result) =
      score loss C rows := by
  rw [metricsOf_eq loss hC, result_eq, result_eq]
  unfold score MeanMetric.new
  simp only [zero_add, Nat.cast_sum, Nat.cast_list_sum, List.map_map]
  rfl

theorem take_cases {α : Type*} (i : ℕ) (a b : List α) :
    (∃ j, (a ++ b).take i = a.take j) ∨ ∃ j, (a ++ b).take i = a ++ b.take j := by
  rw [List.take_append]
  rcases le_total i a.length with h | h
  · exact Or.inl ⟨i, by rw [Nat.sub_eq_zero_of_le h, List.take_zero, List.append_nil]⟩
  · exact Or.inr ⟨i - a.length, by rw [List.take_of_length_le h]⟩

/-- The events that leave results and files alone. -/
def QuietEv : LoopEv β → Prop
  | .reset => True
  | .train _ => True
  | .test _ => True
  | _ => False

theorem run_quiet (T : TrainEnv W O β) (evs : List (LoopEv β)) (h : ∀ ev ∈ evs, QuietEv ev) (s : LoopState W O) :
    (s.run T evs).trainRes = s.trainRes ∧ (s.run T evs).testRes = s.testRes ∧ (s.run T evs).files = s.files := by
  induction evs generalizing s with
  | nil => exact ⟨rfl, rfl, rfl⟩
  | cons ev evs ih =>
    obtain ⟨h1, h2, h3⟩ := ih (fun e he => h e (by simp [he])) (s.exec T ev)
    change ((s.exec T ev).run T evs).trainRes = _ ∧ ((s.exec T ev).run T evs).testRes = _ ∧
      ((s.exec T ev).run T evs).files = _
    rw [h1, h2, h3]
    have := h ev (by simp)
    cases ev <;> first | exact ⟨rfl, rfl, rfl⟩ | exact absurd this (by simp [QuietEv])

/-- Specification: the pairs of results of epoch `e`. -/
noncomputable def trainScore (T : TrainEnv W O β) (train : ℕ → List β) (s : W × O) (e : ℕ) : ℝ × ℝ :=
  score T.loss T.C (trainRows T (afterEpochs T train s e) (train e))

noncomputable def testScore (T : TrainEnv W O β) (train test : ℕ → List β) (s : W × O) (e : ℕ) : ℝ × ℝ :=
  score T.loss T.C (testRows T (afterEpochs T train s (e + 1)).1 (test e))

/-- The state after `e` whole epochs. -/
structure AfterEpoch (T : TrainEnv W O β) (es : ℕ) (train test : ℕ → List β) (s0 : W × O) (files : ℕ → Ckpt W) (e : ℕ)
    (s : LoopState W O) : Prop where
  w : (s.w, s.o) = afterEpochs T train s0 e
  trainRes : s.trainRes = (List.range e).map (trainScore T train s0)
  testRes : s.testRes = (List.range e).map (testScore T train test s0)
  files : ∀ i, s.files i = if i < e ∧ i % es = 0 then .saved (afterEpochs T train s0 (i + 1)).1 else files i

/-- The state at a point where the process may end, `k` epochs being validated. -/
structure AtCrash (T : TrainEnv W O β) (es : ℕ) (train test : ℕ → List β) (s0 : W × O) (files : ℕ → Ckpt W) (k : ℕ)
    (s : LoopState W O) : Prop where
  trainRes : s.trainRes = (List.range k).map (trainScore T train s0) ∨
    s.trainRes = (List.range (k + 1)).map (trainScore T train s0)
  testRes : s.testRes = (List.range k).map (testScore T train test s0)
  written : ∀ i, i + 1 < k → i % es = 0 → s.files i = .saved (afterEpochs T train s0 (i + 1)).1
  last : ∀ i, i + 1 = k → i % es = 0 →
    s.files i = files i ∨ s.files i = .torn ∨ s.files i = .saved (afterEpochs T train s0 (i + 1)).1
  others : ∀ i, k ≤ i ∨ i % es ≠ 0 → s.files i = files i

theorem AfterEpoch.crash {T : TrainEnv W O β} {es : ℕ} {train test : ℕ → List β} {s0 : W × O} {files : ℕ → Ckpt W}
    {e : ℕ} {s : LoopState W O} (h : AfterEpoch T es train test s0 files e s) :
    AtCrash T es train test s0 files e s := by
  refine ⟨Or.inl h.trainRes, h.testRes, ?_, ?_, ?_⟩
  · intro i hi hm
    rw [h.files, if_pos ⟨by omega, hm⟩]
  · intro i hi hm
    right; right
    rw [h.files, if_pos ⟨by omega, hm⟩]
  · intro i hi
    rw [h.files, if_neg]
    rintro ⟨h1, h2⟩
    rcases hi with hi | hi
    · omega
    · exact hi h2

theorem epochEvents_eq (es e : ℕ) (tr te : List β) :
    epochEvents es e tr te = ([.reset] ++ tr.map .train) ++ ([.endTrain] ++ (([.reset] ++ te.map .test) ++
      ([.endTest] ++ (if e % es = 0 then [.saveBegin e, .saveEnd e] else [])))) := by
  unfold epochEvents
  simp [List.append_assoc]

theorem quiet_train (tr : List β) : ∀ ev ∈ ([.reset] ++ tr.map .train : List (LoopEv β)), QuietEv ev := by
  intro ev h
  simp only [List.mem_append, List.mem_singleton, List.mem_map] at h
  rcases h with rfl | ⟨b, _, rfl⟩ <;> trivial

theorem quiet_test (tr : List β) : ∀ ev ∈ ([.reset] ++ tr.map .test : List (LoopEv β)), QuietEv ev := by
  intro ev h
  simp only [List.mem_append, List.mem_singleton, List.mem_map] at h
  rcases h with rfl | ⟨b, _, rfl⟩ <;> trivial

/-- Training part of an epoch. -/
theorem run_trainPart (T : TrainEnv W O β) (bs : List β) (s : LoopState W O) :
    s.run T ([.reset] ++ bs.map .train) = { s with
      w := (afterBatches T (s.w, s.o) bs).1, o := (afterBatches T (s.w, s.o) bs).2,
      m := metricsOf T.loss T.C (.new, .new) (trainRows T (s.w, s.o) bs) } := by
  rw [run_append, run_train]
  rfl

/-- Validation part of an epoch. -/
theorem run_testPart (T : TrainEnv W O β) (bs : List β) (s : LoopState W O) :
    s.run T ([.reset] ++ bs.map .test) = { s with
      m := metricsOf T.loss T.C (.new, .new) (testRows T s.w bs) } := by
  rw [run_append, run_test]
  rfl

section
variable {T : TrainEnv W O β} {es : ℕ} {train test : ℕ → List β} {s0 : W × O} {files : ℕ → Ckpt W} {e : ℕ}
  {s : LoopState W O}

/-- A crash within an epoch. -/
theorem AfterEpoch.within (hC : 0 < T.C) (h : AfterEpoch T es train test s0 files e s) (j : ℕ) :
    (∃ k, (k = e ∨ k = e + 1) ∧
      AtCrash T es train test s0 files k (s.run T ((epochEvents es e (train e) (test e)).take j))) ∧
    AfterEpoch T es train test s0 files (e + 1) (s.run T (epochEvents es e (train e) (test e))) := by
  have hw : (s.w, s.o) = afterEpochs T train s0 e := h.w
  -- states after the parts of the epoch
  obtain ⟨a, ha⟩ : ∃ a, a = s.run T ([.reset] ++ (train e).map .train) := ⟨_, rfl⟩
  have ha' := ha
  rw [run_trainPart, hw] at ha'
  obtain ⟨b, hb⟩ : ∃ b, b = a.run T [.endTrain] := ⟨_, rfl⟩
  have hbt : b.trainRes = (List.range (e + 1)).map (trainScore T train s0) := by
    rw [hb]
    change a.trainRes ++ [(a.m.1.result, a.m.2.result)] = _
    rw [ha']
    dsimp only
    rw [score_eq _ hC, h.trainRes, List.range_succ, List.map_append]
    rfl
  have hbe : b.testRes = s.testRes ∧ b.files = s.files ∧ b.w = (afterEpochs T train s0 (e + 1)).1 ∧
      b.o = (afterEpochs T train s0 (e + 1)).2 := by
    rw [hb]
    change a.testRes = _ ∧ a.files = _ ∧ a.w = _ ∧ a.o = _
    rw [ha']
    exact ⟨rfl, rfl, rfl, rfl⟩
  obtain ⟨c, hc⟩ : ∃ c, c = b.run T ([.reset] ++ (test e).map .test) := ⟨_, rfl⟩
  have hc' := hc
  rw [run_testPart] at hc'
  obtain ⟨d, hd⟩ : ∃ d, d = c.run T [.endTest] := ⟨_, rfl⟩
  have hdt : d.testRes = (List.range (e + 1)).map (testScore T train test s0) := by
    rw [hd]
    change c.testRes ++ [(c.m.1.result, c.m.2.result)] = _
    rw [hc']
    dsimp only
    rw [score_eq _ hC, hbe.1, h.testRes, List.range_succ, List.map_append, hbe.2.2.1]
    rfl
  have hde : d.trainRes = (List.range (e + 1)).map (trainScore T train s0) ∧ d.files = s.files ∧
      d.w = (afterEpochs T train s0 (e + 1)).1 ∧ d.o = (afterEpochs T train s0 (e + 1)).2 := by
    rw [hd]
    change c.trainRes = _ ∧ c.files = _ ∧ c.w = _ ∧ c.o = _
    rw [hc']
    exact ⟨hbt, hbe.2.1, hbe.2.2.1, hbe.2.2.2⟩
  -- a crash before the validation results are there
  have hearly : ∀ x : LoopState W O, (x.trainRes = s.trainRes ∨ x.trainRes = b.trainRes) → x.testRes = s.testRes →
      x.files = s.files → AtCrash T es train test s0 files e x := by
    intro x h1 h2 h3
    obtain ⟨_, g2, g3, g4, g5⟩ := h.crash
    refine ⟨?_, h2.trans g2, by rw [h3]; exact g3, by rw [h3]; exact g4, by rw [h3]; exact g5⟩
    rcases h1 with h1 | h1
    · exact Or.inl (h1.trans h.trainRes)
    · exact Or.inr (h1.trans hbt)
  -- a crash after that
  have hlate : ∀ x : LoopState W O, x.trainRes = d.trainRes → x.testRes = d.testRes →
      (∀ i, i ≠ e ∨ e % es ≠ 0 → x.files i = s.files i) → (x.files e = s.files e ∨ x.files e = .torn ∨
        x.files e = .saved (afterEpochs T train s0 (e + 1)).1) → AtCrash T es train test s0 files (e + 1) x := by
    intro x h1 h2 h3 h4
    refine ⟨Or.inl (h1.trans hde.1), h2.trans hdt, ?_, ?_, ?_⟩
    · intro i hi hm
      rw [h3 i (Or.inl (by omega)), h.files, if_pos ⟨by omega, hm⟩]
    · intro i hi hm
      obtain rfl : i = e := by omega
      have : s.files i = files i := by rw [h.files, if_neg (by omega)]
      rwa [this] at h4
    · intro i hi
      rw [h3 i (by
        rcases hi with hi | hi
        · exact Or.inl (by omega)
        · by_cases hie : i = e
          · exact Or.inr (hie ▸ hi)
          · exact Or.inl hie), h.files, if_neg]
      rintro ⟨g1, g2⟩
      rcases hi with hi | hi
      · omega
      · exact hi g2
  constructor
  · rw [epochEvents_eq]
    rcases take_cases j ([.reset] ++ (train e).map .train : List (LoopEv β)) _ with ⟨i, hi⟩ | ⟨i, hi⟩
    · rw [hi]
      obtain ⟨g1, g2, g3⟩ := run_quiet T _ (fun ev he => quiet_train (train e) ev (List.mem_of_mem_take he)) s
      exact ⟨e, Or.inl rfl, hearly _ (Or.inl g1) g2 g3⟩
    rw [hi, run_append, ← ha]
    rcases take_cases i ([.endTrain] : List (LoopEv β)) _ with ⟨i', hi'⟩ | ⟨i', hi'⟩
    · rw [hi']
      refine ⟨e, Or.inl rfl, ?_⟩
      rcases i' with _ | i'
      · exact hearly _ (Or.inl (by change a.trainRes = _; rw [ha'])) (by change a.testRes = _; rw [ha'])
          (by change a.files = _; rw [ha'])
      · rw [show ([.endTrain] : List (LoopEv β)).take (i' + 1) = [.endTrain] by simp, ← hb]
        exact hearly _ (Or.inr rfl) hbe.1 hbe.2.1
    rw [hi', run_append, ← hb]
    rcases take_cases i' ([.reset] ++ (test e).map .test : List (LoopEv β)) _ with ⟨i2, hi2⟩ | ⟨i2, hi2⟩
    · rw [hi2]
      obtain ⟨g1, g2, g3⟩ := run_quiet T _ (fun ev he => quiet_test (test e) ev (List.mem_of_mem_take he)) b
      exact ⟨e, Or.inl rfl, hearly _ (Or.inr g1) (g2.trans hbe.1) (g3.trans hbe.2.1)⟩
    rw [hi2, run_append, ← hc]
    rcases take_cases i2 ([.endTest] : List (LoopEv β)) _ with ⟨i3, hi3⟩ | ⟨i3, hi3⟩
    · rw [hi3]
      rcases i3 with _ | i3
      · exact ⟨e, Or.inl rfl, hearly _ (Or.inr (by change c.trainRes = _; rw [hc']))
          (by change c.testRes = _; rw [hc']; exact hbe.1) (by change c.files = _; rw [hc']; exact hbe.2.1)⟩
      · rw [show ([.endTest] : List (LoopEv β)).take (i3 + 1) = [.endTest] by simp, ← hd]
        exact ⟨e + 1, Or.inr rfl, hlate _ rfl rfl (fun i _ => by rw [hde.2.1]) (Or.inl (by rw [hde.2.1]))⟩
    rw [hi3, run_append, ← hd]
    refine ⟨e + 1, Or.inr rfl, ?_⟩
    split
    swap
    · rw [List.take_nil]
      exact hlate d rfl rfl (fun i _ => by rw [hde.2.1]) (Or.inl (by rw [hde.2.1]))
    next hm =>
    rcases i3 with _ | _ | i3
    · exact hlate d rfl rfl (fun i _ => by rw [hde.2.1]) (Or.inl (by rw [hde.2.1]))
    · refine hlate _ rfl rfl ?_ (Or.inr (Or.inl ?_))
      · intro i hi
        change Function.update d.files e .torn i = _
        rw [Function.update_of_ne (by rcases hi with hi | hi; exact hi; exact absurd hm hi), hde.2.1]
      · exact Function.update_self _ _ _
    · rw [show ([.saveBegin e, .saveEnd e] : List (LoopEv β)).take (i3 + 1 + 1) = [.saveBegin e, .saveEnd e] by simp]
      refine hlate _ rfl rfl ?_ (Or.inr (Or.inr ?_))
      · intro i hi
        change Function.update (Function.update d.files e .torn) e (.saved d.w) i = _
        have : i ≠ e := by rcases hi with hi | hi; exact hi; exact absurd hm hi
        rw [Function.update_of_ne this, Function.update_of_ne this, hde.2.1]
      · change Function.update (Function.update d.files e .torn) e (.saved d.w) e = _
        rw [Function.update_self, hde.2.2.1]
  · rw [epochEvents_eq, run_append, ← ha, run_append, ← hb, run_append, ← hc, run_append, ← hd]
    split
    · next hm =>
      refine ⟨?_, hde.1, hdt, ?_⟩
      · exact Prod.ext hde.2.2.1 hde.2.2.2
      · intro i
        change Function.update (Function.update d.files e .torn) e (.saved d.w) i = _
        by_cases hie : i = e
        · subst hie
          rw [Function.update_self, if_pos ⟨by omega, hm⟩, hde.2.2.1]
        · rw [Function.update_of_ne hie, Function.update_of_ne hie, hde.2.1, h.files]
          have : (i < e + 1 ∧ i % es = 0) ↔ (i < e ∧ i % es = 0) := by omega
          simp only [this]
    · next hm =>
      refine ⟨Prod.ext hde.2.2.1 hde.2.2.2, hde.1, hdt, ?_⟩
      intro i
      change d.files i = _
      rw [hde.2.1, h.files]
      have : (i < e + 1 ∧ i % es = 0) ↔ (i < e ∧ i % es = 0) := by
        constructor
        · rintro ⟨h1, h2⟩
          refine ⟨?_, h2⟩
          by_contra hcon
          obtain rfl : i = e := by omega
          exact hm h2
        · rintro ⟨h1, h2⟩; exact ⟨by omega, h2⟩
      simp only [this]

end

theorem trainingEvents_succ (es E : ℕ) (train test : ℕ → List β) :
    trainingEvents es (E + 1) train test = trainingEvents es E train test ++ epochEvents es E (train E) (test E) := by
  unfold trainingEvents
  rw [List.range_succ, List.flatMap_append]
  simp

/-- All whole epochs. -/
theorem afterEpoch_all (T : TrainEnv W O β) (hC : 0 < T.C) (es E : ℕ) (train test : ℕ → List β) (w : W) (o : O)
    (files : ℕ → Ckpt W) : AfterEpoch T es train test (w, o) files E
      ((LoopState.start w o files).run T (trainingEvents es E train test)) := by
  induction E with
  | zero => exact ⟨rfl, rfl, rfl, fun i => by simp [trainingEvents, LoopState.run, LoopState.start]⟩
  | succ E ih =>
    rw [trainingEvents_succ, run_append]
    exact (ih.within hC 0).2

theorem atCrash_all (T : TrainEnv W O β) (hC : 0 < T.C) (es E : ℕ) (train test : ℕ → List β) (w : W) (o : O)
    (files : ℕ → Ckpt W) (n : ℕ) : ∃ k ≤ E, AtCrash T es train test (w, o) files k
      (trainingUpTo T es E train test w o files n) := by
  unfold trainingUpTo
  induction E generalizing n with
  | zero =>
    refine ⟨0, le_rfl, ?_⟩
    rw [show trainingEvents es 0 train test = [] from rfl, List.take_nil]
    exact (afterEpoch_all T hC es 0 train test w o files).crash
  | succ E ih =>
    rw [trainingEvents_succ]
    rcases take_cases n (trainingEvents es E train test) (epochEvents es E (train E) (test E)) with ⟨j, hj⟩ | ⟨j, hj⟩
    · rw [hj]
      obtain ⟨k, hk, h⟩ := ih j
      exact ⟨k, by omega, h⟩
    · rw [hj, run_append]
      obtain ⟨k, hk, h⟩ := ((afterEpoch_all T hC es E train test w o files).within hC j).1
      exact ⟨k, by omega, h⟩

theorem w_all (T : TrainEnv W O β) (hC : 0 < T.C) (es E : ℕ) (train test : ℕ → List β) (w : W) (o : O)
    (files : ℕ → Ckpt W) :
    (LoopState.run T (.start w o files) (trainingEvents es E train test)).w = (afterEpochs T train (w, o) E).1 :=
  congrArg Prod.fst (afterEpoch_all T hC es E train test w o files).w

/-! ## C132 -/

/-- **C132, the results.** At every point where the process may end, the lists of
results hold for every finished epoch the loss and accuracy of the network: for
validation with the variables at the end of the epoch, for training with the variables
each batch met. -/
theorem C132_results (T : TrainEnv W O β) (hC : 0 < T.C) (es E : ℕ) (train test : ℕ → List β) (w : W) (o : O)
    (files : ℕ → Ckpt W) (n : ℕ) :
    let s := trainingUpTo T es E train test w o files n
    s.testRes.length ≤ E ∧
    (∀ e r, s.testRes[e]? = some r → r = score T.loss T.C (testRows T (afterEpochs T train (w, o) (e + 1)).1 (test e))) ∧
    (s.trainRes.length = s.testRes.length ∨ s.trainRes.length = s.testRes.length + 1) ∧
    ∀ e r, s.trainRes[e]? = some r → r = score T.loss T.C (trainRows T (afterEpochs T train (w, o) e) (train e)) := by
  intro s
  obtain ⟨k, hk, h⟩ := atCrash_all T hC es E train test w o files n
  have hget : ∀ {f : ℕ → ℝ × ℝ} {m e : ℕ} {r : ℝ × ℝ}, ((List.range m).map f)[e]? = some r → r = f e := by
    intro f m e r hr
    rw [List.getElem?_map] at hr
    cases hx : (List.range m)[e]? with
    | none => rw [hx] at hr; simp at hr
    | some x =>
      rw [hx] at hr
      rw [List.getElem?_range (by
        have := (List.getElem?_eq_some_iff.1 hx).1
        simpa using this)] at hx
      cases hx
      simpa using hr.symm
  have hlen : s.testRes.length = k := by rw [h.testRes]; simp
  refine ⟨by omega, ?_, ?_, ?_⟩
  · intro e r hr
    rw [h.testRes] at hr
    exact hget hr
  · rcases h.trainRes with h1 | h1
    · left; rw [h1, hlen]; simp
    · right; rw [h1, hlen]; simp
  · intro e r hr
    rcases h.trainRes with h1 | h1
    · rw [h1] at hr; exact hget hr
    · rw [h1] at hr; exact hget hr

/-- **C132, in part: if the directory is empty at the start.** At every point where the
process may end, a checkpoint that can be loaded holds the variables whose validation
was reported for its epoch.  Missing: checkpoints left by an earlier run, see
`C132_stale_false`. -/
theorem C132_checkpoints_partial (T : TrainEnv W O β) (hC : 0 < T.C) (es E : ℕ) (train test : ℕ → List β) (w : W) (o : O)
    (n e : ℕ) (w' : W)
    (hload : loadWeights (trainingUpTo T es E train test w o (fun _ => .absent) n).files e = .ok w') :
    w' = (afterEpochs T train (w, o) (e + 1)).1 ∧
    (trainingUpTo T es E train test w o (fun _ => .absent) n).testRes[e]? =
      some (score T.loss T.C (testRows T w' (test e))) := by
  obtain ⟨k, hk, h⟩ := atCrash_all T hC es E train test w o (fun _ => .absent) n
  have hfile : (trainingUpTo T es E train test w o (fun _ => .absent) n).files e = .saved w' := by
    unfold loadWeights at hload
    split at hload
    · next x hx => cases hload; exact hx
    · cases hload
    · cases hload
  have hek : e < k := by
    by_contra hcon
    rw [h.others e (Or.inl (by omega))] at hfile
    cases hfile
  have hm : e % es = 0 := by
    by_contra hcon
    rw [h.others e (Or.inr hcon)] at hfile
    cases hfile
  have hw : w' = (afterEpochs T train (w, o) (e + 1)).1 := by
    rcases Nat.lt_or_ge (e + 1) k with h1 | h1
    · rw [h.written e h1 hm] at hfile
      cases hfile; rfl
    · rcases h.last e (by omega) hm with h2 | h2 | h2 <;> rw [h2] at hfile <;> cases hfile
      rfl
  refine ⟨hw, ?_⟩
  rw [h.testRes, List.getElem?_map, List.getElem?_range hek, hw]
  rfl

/-- **C132, what can be loaded.** All saved epochs before the last validated one. -/
theorem C132_available (T : TrainEnv W O β) (hC : 0 < T.C) (es E : ℕ) (train test : ℕ → List β) (w : W) (o : O)
    (files : ℕ → Ckpt W) (n e : ℕ) (hm : e % es = 0)
    (he : e + 1 < (trainingUpTo T es E train test w o files n).testRes.length) :
    loadWeights (trainingUpTo T es E train test w o files n).files e =
      .ok (afterEpochs T train (w, o) (e + 1)).1 := by
  obtain ⟨k, hk, h⟩ := atCrash_all T hC es E train test w o files n
  have hlen : (trainingUpTo T es E train test w o files n).testRes.length = k := by rw [h.testRes]; simp
  unfold loadWeights
  rw [h.written e (by omega) hm]

/-- **C132, the final variables, in part.** If the last epoch is one that is saved (as
with the default `epoch_save = 1`), the variables left by the last epoch can be
loaded. -/
theorem C132_final_partial (T : TrainEnv W O β) (hC : 0 < T.C) (es E : ℕ) (train test : ℕ → List β) (w : W) (o : O)
    (files : ℕ → Ckpt W) (n : ℕ) (hn : (trainingEvents es E train test).length ≤ n) (hE : 0 < E)
    (hm : (E - 1) % es = 0) :
    loadWeights (trainingUpTo T es E train test w o files n).files (E - 1) = .ok (afterEpochs T train (w, o) E).1 ∧
    (trainingUpTo T es E train test w o files n).w = (afterEpochs T train (w, o) E).1 := by
  have h := afterEpoch_all T hC es E train test w o files
  unfold trainingUpTo
  rw [List.take_of_length_le hn]
  refine ⟨?_, w_all T hC es E train test w o files⟩
  unfold loadWeights
  rw [h.files, if_pos ⟨by omega, hm⟩, show E - 1 + 1 = E by omega]

end

/-- A network whose only variable is changed by the learning rate in every step. -/
noncomputable abbrev driftEnv : TrainEnv ℝ ℕ Unit :=
  ⟨fun w _ => ([], w), fun w o _ => (w - learningRate (1/1000) (7/10) 1 o, o + 1), fun _ _ => [], fun _ => [],
    fun _ _ => 0, 1⟩

/-- **C132 fails for a directory that holds checkpoints of an earlier run**: they can be
loaded under the numbers of epochs the new run has not reached. -/
theorem C132_stale_false : ¬ ∀ (T : TrainEnv ℝ ℕ Unit) (_ : 0 < T.C) (es E E' : ℕ) (train test : ℕ → List Unit)
    (w0 w : ℝ) (o0 o : ℕ) (n0 n e : ℕ) (w' : ℝ),
    loadWeights (trainingUpTo T es E' train test w o
      (trainingUpTo T es E train test w0 o0 (fun _ => .absent) n0).files n).files e = .ok w' →
    w' = (afterEpochs T train (w, o) (e + 1)).1 := by
  intro H
  have h := afterEpoch_all driftEnv (by norm_num) 1 1 (fun _ => [()]) (fun _ => []) 0 0 (fun _ => Ckpt.absent)
  have := H driftEnv (by norm_num) 1 1 1 (fun _ => [()]) (fun _ => []) 0 5 0 0
    (trainingEvents 1 1 (fun _ => [()]) (fun _ => [])).length 0 0
    (afterEpochs driftEnv (fun _ => [()]) (0, 0) 1).1 (by
      unfold loadWeights trainingUpTo
      rw [List.take_zero, List.take_length]
      have e0 : ∀ f, (LoopState.run driftEnv (.start 5 0 f) []).files = f := fun _ => rfl
      rw [e0, h.files, if_pos ⟨by norm_num, by norm_num⟩])
  simp [afterEpochs, afterBatches] at this
  linarith

/-- **C132 fails for the last epoch** if `epoch_save` does not divide its number: two
epochs with `epoch_save = 2`. -/
theorem C132_final_false : ¬ ∀ (T : TrainEnv ℝ ℕ Unit) (_ : 0 < T.C) (es E : ℕ) (_ : 0 < es) (_ : 0 < E)
    (train test : ℕ → List Unit) (w : ℝ) (o n : ℕ), (trainingEvents es E train test).length ≤ n →
    ∃ e, loadWeights (trainingUpTo T es E train test w o (fun _ => .absent) n).files e =
      .ok (trainingUpTo T es E train test w o (fun _ => .absent) n).w := by
  intro H
  obtain ⟨e, he⟩ := H driftEnv (by norm_num) 2 2 (by norm_num) (by norm_num) (fun _ => [()]) (fun _ => []) 0 0 _ le_rfl
  have h := afterEpoch_all driftEnv (by norm_num) 2 2 (fun _ => [()]) (fun _ => []) 0 0 (fun _ => Ckpt.absent)
  unfold trainingUpTo at he
  rw [List.take_length] at he
  rw [w_all driftEnv (by norm_num)] at he
  unfold loadWeights at he
  rw [h.files] at he
  split_ifs at he with hc
  · obtain rfl : e = 0 := by omega
    simp [afterEpochs, afterBatches, learningRate] at he
    norm_num at he

/-! ## C133 -/

section
variable {W O β : Type*}

theorem afterBatches_stateless (T : TrainEnv W O β) (hT : ∀ w o o' b, (T.step w o b).1 = (T.step w o' b).1)
    (bs : List β) (w : W) (o o' : O) : (afterBatches T (w, o) bs).1 = (afterBatches T (w, o') bs).1 := by
  induction bs generalizing w o o' with
  | nil => rfl
  | cons b bs ih =>
    unfold afterBatches
    have e := hT (T.forward w b).2 o o' b
    rw [← Prod.mk.eta (p := T.step (T.forward w b).2 o b), ← Prod.mk.eta (p := T.step (T.forward w b).2 o' b), e]
    exact ih _ _ _

theorem afterEpochs_stateless (T : TrainEnv W O β) (hT : ∀ w o o' b, (T.step w o b).1 = (T.step w o' b).1)
    (train : ℕ → List β) (e0 : ℕ) (s : W × O) (o' : O) (e : ℕ) :
    (afterEpochs T (fun i => train (e0 + i)) ((afterEpochs T train s e0).1, o') e).1 =
      (afterEpochs T train s (e0 + e)).1 := by
  induction e with
  | zero => rfl
  | succ e ih =>
    rw [afterEpochs, ← Nat.add_assoc, afterEpochs,
      ← Prod.mk.eta (p := afterEpochs T (fun i => train (e0 + i)) ((afterEpochs T train s e0).1, o') e), ih,
      ← Prod.mk.eta (p := afterEpochs T train s (e0 + e))]
    exact afterBatches_stateless T hT _ _ _ _

/-- **C133, in part: optimisers without state.** A run that ended anywhere after epoch
`e0` was saved and validated, continued by a new process from checkpoint `e0` with the
batches of the epochs that follow, reaches the variables of the run without
interruption.  Missing: optimisers with a state, such as the one of the script, see
`C133_resume_false`. -/
theorem C133_resume_partial (T : TrainEnv W O β) (hC : 0 < T.C)
    (hT : ∀ w o o' b, (T.step w o b).1 = (T.step w o' b).1) (es E E' : ℕ) (train test : ℕ → List β) (w : W) (o o' : O)
    (files : ℕ → Ckpt W) (n n' e0 : ℕ) (hm : e0 % es = 0)
    (he : e0 + 1 < (trainingUpTo T es E train test w o files n).testRes.length) (test' : ℕ → List β)
    (hn' : (trainingEvents es E' (fun i => train (e0 + 1 + i)) test').length ≤ n') :
    ∃ s, resumeUpTo T es E' (fun i => train (e0 + 1 + i)) test' o'
        (trainingUpTo T es E train test w o files n).files e0 n' = .ok s ∧
      s.w = (afterEpochs T train (w, o) (e0 + 1 + E')).1 := by
  unfold resumeUpTo
  rw [C132_available T hC es E train test w o files n e0 hm he]
  refine ⟨_, rfl, ?_⟩
  unfold trainingUpTo
  rw [List.take_of_length_le hn']
  rw [w_all T hC]
  exact afterEpochs_stateless T hT train (e0 + 1) (w, o) o' E'

/-- **C133, the numbers of the checkpoints.** The resumed run counts its epochs from
zero: once its first epoch is done, checkpoint 0 holds the variables one epoch after
those that were loaded, whatever it held before. -/
theorem C133_overwrites (T : TrainEnv W O β) (hC : 0 < T.C) (es E : ℕ) (hE : 0 < E) (train test : ℕ → List β) (o : O)
    (files : ℕ → Ckpt W) (e0 n : ℕ) (w : W) (hload : loadWeights files e0 = .ok w)
    (hn : (trainingEvents es E train test).length ≤ n) :
    ∃ s, resumeUpTo T es E train test o files e0 n = .ok s ∧
      loadWeights s.files 0 = .ok (afterEpochs T train (w, o) 1).1 := by
  unfold resumeUpTo
  rw [hload]
  refine ⟨_, rfl, ?_⟩
  unfold trainingUpTo loadWeights
  rw [List.take_of_length_le hn, (afterEpoch_all T hC es E train test w o files).files, if_pos ⟨hE, by simp⟩]

end

theorem drift_step (e : ℕ) : (afterEpochs driftEnv (fun _ => [()]) (0, 0) e).2 = e := by
  induction e with
  | zero => rfl
  | succ e ih =>
    rw [afterEpochs, afterBatches, afterBatches]
    change (afterEpochs driftEnv (fun _ => [()]) (0, 0) e).2 + 1 = e + 1
    rw [ih]

/-- **C133 fails**: neither the state of the optimiser nor the number of steps is
saved, so the learning rate starts again from its initial value.  Twenty epochs of one
batch, interrupted and resumed for one more: the last step is made with the rate 0.001
instead of 0.0007. -/
theorem C133_resume_false : ¬ ∀ (T : TrainEnv ℝ ℕ Unit) (_ : 0 < T.C) (es E E' : ℕ) (train test : ℕ → List Unit)
    (w : ℝ) (o : ℕ) (n n' e0 : ℕ) (s : LoopState ℝ ℕ), (trainingEvents es E train test).length ≤ n → e0 + 1 = E →
    (trainingEvents es E' (fun i => train (e0 + 1 + i)) test).length ≤ n' →
    resumeUpTo T es E' (fun i => train (e0 + 1 + i)) test o
      (trainingUpTo T es E train test w o (fun _ => .absent) n).files e0 n' = .ok s →
    s.w = (afterEpochs T train (w, o) (E + E')).1 := by
  intro H
  have h := C132_final_partial driftEnv (by norm_num) 1 20 (fun _ => [()]) (fun _ => []) 0 0 (fun _ => .absent) _ le_rfl
    (by norm_num) (by norm_num)
  have hb := H driftEnv (by norm_num) 1 20 1 (fun _ => [()]) (fun _ => []) 0 0 _ _ 19 _ le_rfl rfl le_rfl (by
    unfold resumeUpTo
    rw [h.1])
  unfold trainingUpTo at hb
  rw [List.take_length, List.take_length, w_all driftEnv (by norm_num)] at hb
  have e1 : (afterEpochs driftEnv (fun _ => [()]) (0, 0) (20 + 1)).1 =
      (afterEpochs driftEnv (fun _ => [()]) (0, 0) 20).1 - learningRate (1/1000) (7/10) 1
        (afterEpochs driftEnv (fun _ => [()]) (0, 0) 20).2 := rfl
  have e2 : ∀ x : ℝ, (afterEpochs driftEnv (fun _ => [()]) (x, 0) 1).1 = x - learningRate (1/1000) (7/10) 1 0 :=
    fun x => rfl
  rw [e1, drift_step, e2] at hb
  norm_num [learningRate] at hb

/-- The hypotheses of the resumption theorem are met: two batches, an optimiser that
ignores its state, stopped in the third epoch. -/
example : ∃ T : TrainEnv ℝ ℕ Unit, 0 < T.C ∧ (∀ w o o' b, (T.step w o b).1 = (T.step w o' b).1) ∧
    0 + 1 < (trainingUpTo T 1 3 (fun _ => [(), ()]) (fun _ => [()]) 0 0 (fun _ => .absent) 20).testRes.length := by
  refine ⟨⟨fun w _ => ([], w), fun w o _ => (w - 1, o + 1), fun _ _ => [], fun _ => [], fun _ _ => 0, 1⟩,
    by norm_num, fun _ _ _ _ => rfl, ?_⟩
  simp [trainingUpTo, trainingEvents, epochEvents, LoopState.run, LoopState.exec, LoopState.start, List.range_succ]

end PC
