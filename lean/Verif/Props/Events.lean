import Verif.Async

/-!
# C124: resources left behind by the calls
-/

set_option linter.unusedVariables false

namespace PC

theorem FindOps.events {D : ℕ} {S : Type} (o : FindOps D S) (blocks : List (List (Fin D → ℤ))) (n : ℕ) :
    (o.prog blocks).Events n ↔ n = 1 := by
  have loop : ∀ (op : S → S → Prop) (rest : HostProg FindBuf (HostVal D) S) (n : ℕ) (is : List ℕ),
      (is.foldr (fun i next => .upload .offsets (fun v d => o.put (v.offs.getD i []) d) (.launch o.ranges (.launch op next)))
        rest).Events n ↔ rest.Events n := by
    intro op rest n is
    induction is with
    | nil => rfl
    | cons i is ih =>
      rw [← ih]
      constructor
      · intro h
        cases h with | upload h => cases h with | launch h => cases h with | launch h => exact h
      · intro h; exact .upload (.launch (.launch h))
  have loop2 : ∀ (n : ℕ) (is : List ℕ), (is.foldr (fun _ next => .launch o.store next)
      (.ret : HostProg FindBuf (HostVal D) S)).Events n ↔ n = 0 := by
    intro n is
    induction is with
    | nil =>
      constructor
      · intro h; cases h; rfl
      · rintro rfl; exact .ret
    | cons i is ih =>
      rw [← ih]
      constructor
      · intro h
        cases h with | launch h => exact h
      · intro h; exact .launch h
  have st : ∀ (num n : ℕ), (o.storeProg blocks.length num).Events n ↔ n = 0 := by
    intro num n
    unfold FindOps.storeProg
    by_cases hn : blocks.length > 1
    · simp only [if_pos hn]
      constructor
      · intro h
        cases h with
        | launch h =>
          rw [loop] at h
          cases h; rfl
      · rintro rfl
        exact .launch ((loop _ _ _ _).mpr .ret)
    · simp only [if_neg hn]
      constructor
      · intro h
        cases h with | launch h => exact (loop2 _ _).mp h
      · intro h; exact .launch ((loop2 _ _).mpr h)
  unfold FindOps.prog
  constructor
  · intro h
    cases h with | launch h => cases h with | write h =>
      rw [loop] at h
      cases h with | launch h => cases h with | launch h => cases h with | download h => cases h with | sync h =>
        cases h with | read h =>
          rw [(st _ _).mp h]
  · rintro rfl
    exact .launch (.write ((loop _ _ _ _).mpr (.launch (.launch (.download (.sync (.read (v := ⟨[], 0⟩) ((st _ _).mpr rfl))))))))

theorem sampHead_events {D : ℕ} {K : Type} [Field K] (N Wc Ws : ℕ) (keys : ℕ → ℤ)
    (next : ℕ → HostProg SampBuf ℕ (SampDev D K)) (k n : ℕ) (hnext : ∀ v m, (next v).Events m ↔ m = k) :
    (sampHead N Wc Ws keys next).Events n ↔ n = k + 1 := by
  unfold sampHead
  constructor
  · intro h
    cases h with | launch h => cases h with | launch h => cases h with | download h => cases h with | sync h =>
      cases h with | read h => cases h with | launch h => rw [(hnext _ _).mp h]
  · rintro rfl
    exact .launch (.launch (.download (.sync (.read (v := 0) (.launch ((hnext _ _).mpr rfl))))))

theorem poisson_events {D : ℕ} {K : Type} [Field K] (N Wc Ws Wp Wo : ℕ) (keys : ℕ → ℤ) (nc : Fin D → ℤ)
    (nb : ℕ → List ℕ) (n : ℕ) :
    (poissonProg N Wc Ws Wp Wo keys nc nb : HostProg SampBuf ℕ (SampDev D K)).Events n ↔ n = 2 := by
  unfold poissonProg
  refine sampHead_events N Wc Ws keys _ 1 n ?_
  intro v m
  have loop : ∀ (f : ℕ → SampDev D K → SampDev D K → Prop) (rest : HostProg SampBuf ℕ (SampDev D K)) (l : List ℕ),
      (l.foldr (fun c next => .launch (f c) next) rest).Events m ↔ rest.Events m := by
    intro f rest l
    induction l with
    | nil => rfl
    | cons c l ih =>
      rw [← ih]
      constructor
      · intro h
        cases h with | launch h => exact h
      · intro h; exact .launch h
  constructor
  · intro h
    cases h with | launch h =>
      rw [loop] at h
      cases h with | download h => cases h with | sync h => cases h with | read h => cases h with | launch h =>
        cases h with | launch h => cases h; rfl
  · rintro rfl
    exact .launch ((loop _ _ _).mpr (.download (.sync (.read (v := 0) (.launch (.launch .ret))))))

theorem average_events {D : ℕ} {K : Type} [Field K] (N Wc Ws Wa : ℕ) (keys : ℕ → ℤ) (nc : Fin D → ℤ)
    (pts : ℕ → Fin D → K) (n : ℕ) : (averageProg N Wc Ws Wa keys nc pts).Events n ↔ n = 1 := by
  unfold averageProg
  refine sampHead_events N Wc Ws keys _ 0 n ?_
  intro v m
  constructor
  · intro h
    cases h with | launch h => cases h with | launch h => cases h; rfl
  · rintro rfl
    exact .launch (.launch .ret)

theorem other_events {S : Type} (ops : List (S → S → Prop)) (n : ℕ) :
    (launchProg ops : HostProg Unit Unit S).Events n ↔ n = 0 := by
  unfold launchProg
  induction ops with
  | nil =>
    constructor
    · intro h; cases h; rfl
    · rintro rfl; exact .ret
  | cons op ops ih =>
    rw [← ih]
    constructor
    · intro h
      cases h with | launch h => exact h
    · intro h; exact .launch h

/-- Events per call. -/
def eventCost : GpuCall → ℕ
  | .find => 1
  | .poisson => 2
  | .average => 1
  | .other => 0

/-- **C124, what is left behind**: after any history of calls, one more event exists for every
neighbour search and every cell average, two more for every Poisson sampling (not counting the neighbour
search before it). -/
theorem C124_events_partial (n m : ℕ) (cs : List GpuCall) :
    EventsAfter n cs m ↔ m = n + cs.count .find + 2 * cs.count .poisson + cs.count .average := by
  have hc : ∀ (c : GpuCall) k, c.Events k ↔ k = eventCost c := by
    intro c k
    cases c with
    | find =>
      constructor
      · rintro ⟨D, S, o, blocks, h⟩; exact (o.events blocks k).mp h
      · intro h
        exact ⟨0, Unit, ⟨fun _ _ => True, fun _ d => d, fun _ _ => True, fun _ _ => True, fun _ _ => True, fun _ _ => True,
          fun _ => 0, fun _ _ _ => True, fun _ _ => True⟩, [], (FindOps.events _ _ k).mpr h⟩
    | poisson =>
      constructor
      · rintro ⟨D, N, Wc, Ws, Wp, Wo, keys, nc, nb, h⟩; exact (poisson_events N Wc Ws Wp Wo keys nc nb k).mp h
      · intro h
        exact ⟨0, 0, 0, 0, 0, 0, fun _ => 0, fun _ => 0, fun _ => [], (poisson_events _ _ _ _ _ _ _ _ k).mpr h⟩
    | average =>
      constructor
      · rintro ⟨D, N, Wc, Ws, Wa, keys, nc, pts, h⟩; exact (average_events N Wc Ws Wa keys nc pts k).mp h
      · intro h
        exact ⟨0, 0, 0, 0, 0, fun _ => 0, fun _ => 0, fun _ _ => 0, (average_events _ _ _ _ _ _ _ k).mpr h⟩
    | other =>
      constructor
      · rintro ⟨S, ops, h⟩; exact (other_events ops k).mp h
      · intro h
        exact ⟨Unit, [], (other_events _ k).mpr h⟩
  induction cs generalizing m with
  | nil =>
    constructor
    · intro h; cases h; simp
    · intro h
      have : m = n := by simpa using h
      subst this
      exact .nil
  | cons c cs ih =>
    constructor
    · intro h
      cases h with
      | cons h next =>
        have e1 := (ih _).mp next
        have e2 := (hc _ _).mp h
        rw [e1, e2]
        cases c <;> simp [eventCost] <;> ring
    · intro h
      have e : m = (n + cs.count .find + 2 * cs.count .poisson + cs.count .average) + eventCost c := by
        rw [h]
        cases c <;> simp [eventCost] <;> ring
      rw [e]
      exact .cons ((hc c _).mpr rfl) ((ih _).mpr rfl)

/-- **C124 fails**: the number of events grows without bound, although every call has
returned. -/
theorem C124_events_false : ¬ ∃ bound, ∀ (cs : List GpuCall) (m : ℕ), EventsAfter 0 cs m → m ≤ bound := by
  rintro ⟨bound, h⟩
  have := h (List.replicate (bound + 1) .find) (bound + 1) ((C124_events_partial _ _ _).mpr (by
    rw [List.count_replicate_self, List.count_replicate, List.count_replicate]
    simp))
  omega

/-- Operations that only launch kernels leave nothing behind. -/
theorem C124_launches (n m : ℕ) (cs : List GpuCall) (hcs : ∀ c ∈ cs, c = .other) (h : EventsAfter n cs m) : m = n := by
  rw [C124_events_partial] at h
  have : ∀ c, c ≠ .other → cs.count c = 0 := by
    intro c hc
    rw [List.count_eq_zero]
    intro hm
    exact hc (hcs c hm)
  rw [this .find (by decide), this .poisson (by decide), this .average (by decide)] at h
  omega

/-- A hierarchy with two Poisson levels: four searches and two samplings. -/
example : EventsAfter 0 [.find, .poisson, .other, .find, .poisson, .find, .find] 8 :=
  (C124_events_partial _ _ _).mpr (by decide)

end PC
