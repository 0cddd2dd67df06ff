import Verif.AtomicMax
import Mathlib.Algebra.BigOperators.Group.Finset.Basic
import Mathlib.Algebra.Order.BigOperators.Group.Finset
import Mathlib.Algebra.BigOperators.Fin
import Mathlib.Order.Lattice
import Mathlib.Tactic.FinCases

/-!
# Properties of the atomic maximum (C146)
-/

set_option linter.unusedVariables false

namespace PC

section
variable {A β : Type*} [DecidableEq A] [DecidableEq β]

/-- Specification: one call after the other, on the memory alone.  Calls carry the number of their thread; the result
is the memory and, for every call, its thread and the value the address held before. -/
def seqCalls (fmax : β → β → β) : (A → β) → List (ℕ × A × β) → (A → β) × List (ℕ × β)
  | m, [] => (m, [])
  | m, (t, a, v) :: rest =>
    let r := seqCalls fmax (Function.update m a (fmax v (m a))) rest
    (r.1, (t, m a) :: r.2)

theorem seqCalls_append (fmax : β → β → β) (m : A → β) (l l' : List (ℕ × A × β)) :
    seqCalls fmax m (l ++ l') = ((seqCalls fmax (seqCalls fmax m l).1 l').1,
      (seqCalls fmax m l).2 ++ (seqCalls fmax (seqCalls fmax m l).1 l').2) := by
  induction l generalizing m with
  | nil => rfl
  | cons x l ih =>
    obtain ⟨t, a, v⟩ := x
    simp only [List.cons_append, seqCalls, ih]

/-- The calls of all threads with their thread numbers. -/
def tagged {T : ℕ} (progs : Fin T → List (A × β)) : List (List (ℕ × A × β)) :=
  List.ofFn (fun t => (progs t).map (fun c => (t.val, c)))

theorem tagged_set {T : ℕ} (progs : Fin T → List (A × β)) (t : Fin T) (l : List (A × β)) :
    (tagged progs).set t.val (l.map (fun c => (t.val, c))) = tagged (Function.update progs t l) := by
  apply List.ext_getElem
  · simp [tagged]
  · intro i h1 h2
    rw [List.getElem_set]
    simp only [tagged, List.getElem_ofFn]
    split
    · next h =>
      obtain rfl : i = t.val := h.symm
      simp
    · next h =>
      have : (⟨i, by simpa [tagged] using h2⟩ : Fin T) ≠ t := fun e => h (congrArg Fin.val e).symm
      simp [Function.update_of_ne this]

/-- State of a run: the calls that have taken effect, in the order of their successful exchanges. -/
def CasInv (fmax : β → β → β) {T : ℕ} (progs : Fin T → List (A × β)) (m : A → β)
    (c : (A → β) × (Fin T → CasThread A β)) : Prop :=
  ∃ log : List (ℕ × A × β), c.1 = (seqCalls fmax m log).1 ∧
    (∀ t, (c.2 t).rets = ((seqCalls fmax m log).2.filter (fun x => x.1 = t.val)).map Prod.snd) ∧
    ∀ tr, Interleave (tagged (fun t => (c.2 t).todo)) tr → Interleave (tagged progs) (log ++ tr)

theorem casInv_step (fmax : β → β → β) {T : ℕ} (progs : Fin T → List (A × β)) (m : A → β) (s : A → β)
    (ls : Fin T → CasThread A β) (t : Fin T) (s' : A → β) (l' : CasThread A β) (h : CasInv fmax progs m (s, ls))
    (hs : casStep fmax s (ls t) = some (s', l')) : CasInv fmax progs m (s', Function.update ls t l') := by
  obtain ⟨log, h1, h2, h3⟩ := h
  unfold casStep at hs
  -- a step that changes neither the memory nor the calls left
  have same : ∀ e, s' = s → l' = ⟨(ls t).todo, e, (ls t).rets⟩ → CasInv fmax progs m (s', Function.update ls t l') := by
    intro e e1 e2
    refine ⟨log, e1.trans h1, ?_, ?_⟩
    · intro t'
      by_cases ht : t' = t
      · subst ht; simp only [Function.update_self, e2]; exact h2 t'
      · simp only [Function.update_of_ne ht]; exact h2 t'
    · intro tr htr
      apply h3
      have : (fun t' => (Function.update ls t l' t').todo) = fun t' => (ls t').todo := by
        funext t'
        by_cases ht : t' = t
        · subst ht; simp only [Function.update_self, e2]
        · simp only [Function.update_of_ne ht]
      simpa only [this] using htr
  cases htodo : (ls t).todo with
  | nil => rw [htodo] at hs; simp at hs
  | cons c rest =>
    obtain ⟨a, v⟩ := c
    rw [htodo] at hs
    cases hass : (ls t).assumed with
    | none =>
      rw [hass] at hs
      simp only [Option.some.injEq, Prod.mk.injEq] at hs
      exact same (some (s a)) hs.1.symm (by rw [htodo]; exact hs.2.symm)
    | some e =>
      rw [hass] at hs
      dsimp only at hs
      split at hs
      · next he =>
        simp only [Option.some.injEq, Prod.mk.injEq] at hs
        obtain ⟨rfl, rfl⟩ := hs
        subst he
        have h1' : s = (seqCalls fmax m log).1 := h1
        have hsucc : seqCalls fmax m (log ++ [(t.val, a, v)]) =
            (Function.update s a (fmax v (s a)), (seqCalls fmax m log).2 ++ [(t.val, s a)]) := by
          rw [seqCalls_append, ← h1']
          rfl
        refine ⟨log ++ [(t.val, a, v)], ?_, ?_, ?_⟩
        · rw [hsucc]
        · intro t'
          rw [hsucc]
          by_cases ht : t' = t
          · subst ht
            simp only [Function.update_self, List.filter_append, List.map_append]
            rw [h2 t']
            simp
          · have hv : t.val ≠ t'.val := fun e => ht (Fin.ext e.symm)
            simp only [Function.update_of_ne ht, List.filter_append, List.map_append]
            rw [h2 t']
            simp [hv]
        · intro tr htr
          rw [List.append_assoc]
          apply h3
          refine Interleave.step t.val (t.val, a, v) (rest.map (fun c => (t.val, c))) ?_ ?_
          · simp [tagged, htodo]
          · rw [tagged_set]
            have : (fun t' => (Function.update ls t ⟨rest, none, (ls t).rets ++ [s a]⟩ t').todo) =
                Function.update (fun t' => (ls t').todo) t rest := by
              funext t'
              by_cases ht : t' = t
              · subst ht; simp only [Function.update_self]
              · simp only [Function.update_of_ne ht]
            show Interleave _ tr
            simpa only [this] using htr
      · simp only [Option.some.injEq, Prod.mk.injEq] at hs
        exact same (some (s a)) hs.1.symm (by rw [htodo]; exact hs.2.symm)

/-- **C146, atomicity.** Whatever the combining function, the numbers of threads and calls and the schedule: memory and
returned values are those of some order in which the calls are executed one after the other, the calls of every thread in
program order; a call returns the value the address held before it. -/
theorem C146_atomic (fmax : β → β → β) {T : ℕ} (progs : Fin T → List (A × β)) (m m' : A → β) (rets : Fin T → List β)
    (h : CasRun fmax progs m m' rets) :
    ∃ order, Interleave (tagged progs) order ∧ m' = (seqCalls fmax m order).1 ∧
      ∀ t, rets t = ((seqCalls fmax m order).2.filter (fun x => x.1 = t.val)).map Prod.snd := by
  obtain ⟨ls, hrun, hhalt, rfl⟩ := h
  have hinv : CasInv fmax progs m (m', ls) := by
    refine Steps.invariant (CasInv fmax progs m) hrun ?_ (fun s ls t s' l' hi hst => casInv_step fmax progs m s ls t s' l' hi hst)
    exact ⟨[], rfl, fun t => rfl, fun tr htr => htr⟩
  obtain ⟨log, h1, h2, h3⟩ := hinv
  refine ⟨log, ?_, h1, h2⟩
  have := h3 [] (Interleave.done ?_)
  · simpa using this
  · intro p hp
    obtain ⟨t, ht, rfl⟩ := (List.mem_ofFn' _ _).mp hp
    have hn := hhalt t
    unfold casStep at hn
    dsimp only at hn ⊢
    cases htodo : (ls t).todo with
    | nil => rfl
    | cons c rest =>
      rw [htodo] at hn
      obtain ⟨a, v⟩ := c
      cases hass : (ls t).assumed with
      | none => rw [hass] at hn; simp at hn
      | some e =>
        rw [hass] at hn
        dsimp only at hn
        split at hn <;> simp at hn

/-! ### termination -/

/-- The work a thread has to do before its exchange can succeed. -/
def CasThread.stale (m : A → β) (l : CasThread A β) : ℕ :=
  match l.todo, l.assumed with
  | [], _ => 0
  | _ :: _, none => 1
  | (a, _) :: _, some e => if m a = e then 0 else 1

theorem CasThread.stale_le (m : A → β) (l : CasThread A β) : l.stale m ≤ 1 := by
  unfold CasThread.stale
  split
  · omega
  · omega
  · split <;> omega

/-- What is left to do. -/
def casWork {T : ℕ} (c : (A → β) × (Fin T → CasThread A β)) : ℕ :=
  (∑ t, (c.2 t).todo.length) * (T + 1) + ∑ t, (c.2 t).stale c.1

theorem casWork_step (fmax : β → β → β) {T : ℕ} (s : A → β) (ls : Fin T → CasThread A β) (t : Fin T) (s' : A → β)
    (l' : CasThread A β) (hs : casStep fmax s (ls t) = some (s', l')) :
    casWork (s', Function.update ls t l') < casWork (s, ls) := by
  unfold casStep at hs
  have split1 : ∀ g : Fin T → ℕ, ∑ x, g x = g t + ∑ x ∈ Finset.univ.erase t, g x := by
    intro g
    rw [Finset.add_sum_erase _ _ (Finset.mem_univ t)]
  -- a step that changes neither the memory nor the calls left
  have same : s' = s → l'.todo = (ls t).todo → l'.stale s = 0 → (ls t).stale s = 1 →
      casWork (s', Function.update ls t l') < casWork (s, ls) := by
    intro e1 e2 e3 e4
    subst e1
    unfold casWork
    have e5 : ∑ x, (Function.update ls t l' x).todo.length = ∑ x, (ls x).todo.length := by
      refine Finset.sum_congr rfl fun x _ => ?_
      by_cases hx : x = t
      · subst hx; rw [Function.update_self, e2]
      · rw [Function.update_of_ne hx]
    have e6 : ∑ x ∈ Finset.univ.erase t, (Function.update ls t l' x).stale s' =
        ∑ x ∈ Finset.univ.erase t, (ls x).stale s' := by
      refine Finset.sum_congr rfl fun x hx => ?_
      rw [Function.update_of_ne (Finset.ne_of_mem_erase hx)]
    dsimp only
    rw [e5, split1 (fun x => (Function.update ls t l' x).stale s'), split1 (fun x => (ls x).stale s')]
    simp only [Function.update_self, e6, e3, e4]
    omega
  cases htodo : (ls t).todo with
  | nil => rw [htodo] at hs; simp at hs
  | cons c rest =>
    obtain ⟨a, v⟩ := c
    rw [htodo] at hs
    cases hass : (ls t).assumed with
    | none =>
      rw [hass] at hs
      simp only [Option.some.injEq, Prod.mk.injEq] at hs
      obtain ⟨e1, e2⟩ := hs
      refine same e1.symm (by rw [← e2, htodo]) ?_ ?_
      · rw [← e2]; simp [CasThread.stale]
      · unfold CasThread.stale; rw [htodo, hass]
    | some e =>
      rw [hass] at hs
      dsimp only at hs
      split at hs
      · simp only [Option.some.injEq, Prod.mk.injEq] at hs
        obtain ⟨e1, e2⟩ := hs
        unfold casWork
        dsimp only
        have e5 : ∑ x ∈ Finset.univ.erase t, (Function.update ls t l' x).todo.length =
            ∑ x ∈ Finset.univ.erase t, (ls x).todo.length := by
          refine Finset.sum_congr rfl fun x hx => ?_
          rw [Function.update_of_ne (Finset.ne_of_mem_erase hx)]
        have e6 : ∑ x, (Function.update ls t l' x).stale s' ≤ T := by
          calc ∑ x, (Function.update ls t l' x).stale s' ≤ ∑ _x : Fin T, 1 :=
                Finset.sum_le_sum fun x _ => CasThread.stale_le _ _
            _ = T := by simp
        rw [split1 (fun x => (Function.update ls t l' x).todo.length), split1 (fun x => (ls x).todo.length)]
        simp only [Function.update_self, htodo, ← e2, List.length_cons]
        rw [← e2] at e6 e5
        rw [e5]
        have : (rest.length + 1 + ∑ x ∈ Finset.univ.erase t, (ls x).todo.length) * (T + 1) =
            (rest.length + ∑ x ∈ Finset.univ.erase t, (ls x).todo.length) * (T + 1) + (T + 1) := by ring
        rw [this]
        omega
      · next he =>
        simp only [Option.some.injEq, Prod.mk.injEq] at hs
        obtain ⟨e1, e2⟩ := hs
        refine same e1.symm (by rw [← e2, htodo]) ?_ ?_
        · rw [← e2]; simp [CasThread.stale]
        · unfold CasThread.stale; rw [htodo, hass]; simp [he]

/-- **C146, termination.** No schedule can keep the loops running: with `T` threads and `N` calls in total, at most
`N * (T + 1) + T` memory accesses happen, and as long as a call has not returned its thread can go on. -/
theorem C146_terminates (fmax : β → β → β) {T : ℕ} (progs : Fin T → List (A × β)) (m : A → β) (n : ℕ)
    (c : ℕ → (A → β) × (Fin T → CasThread A β)) (h0 : c 0 = (m, fun t => ⟨progs t, none, []⟩))
    (hstep : ∀ i < n, ∃ t s' l', casStep fmax (c i).1 ((c i).2 t) = some (s', l') ∧
      c (i + 1) = (s', Function.update (c i).2 t l')) :
    n ≤ (∑ t, (progs t).length) * (T + 1) + T := by
  have key : ∀ i ≤ n, casWork (c i) + i ≤ casWork (c 0) := by
    intro i
    induction i with
    | zero => intro _; omega
    | succ i ih =>
      intro hi
      obtain ⟨t, s', l', hs, e⟩ := hstep i (by omega)
      have := casWork_step fmax (c i).1 (c i).2 t s' l' hs
      have := ih (by omega)
      rw [e]
      have e3 : casWork ((c i).1, (c i).2) = casWork (c i) := rfl
      omega
  have h1 := key n le_rfl
  have h2 : casWork (c 0) ≤ (∑ t, (progs t).length) * (T + 1) + T := by
    rw [h0]
    unfold casWork
    have : ∑ t : Fin T, CasThread.stale m ⟨progs t, none, []⟩ ≤ T := by
      calc ∑ t : Fin T, CasThread.stale m ⟨progs t, none, []⟩ ≤ ∑ _x : Fin T, 1 :=
            Finset.sum_le_sum fun x _ => CasThread.stale_le _ _
        _ = T := by simp
    dsimp only
    omega
  omega

theorem C146_can_go_on (fmax : β → β → β) (m : A → β) (l : CasThread A β) (h : l.todo ≠ []) :
    ∃ s' l', casStep fmax m l = some (s', l') := by
  obtain ⟨todo, ass, rets⟩ := l
  cases todo with
  | nil => exact absurd rfl h
  | cons c rest =>
    obtain ⟨a, v⟩ := c
    unfold casStep
    cases ass with
    | none => exact ⟨_, _, rfl⟩
    | some e =>
      dsimp only
      split
      · exact ⟨_, _, rfl⟩
      · exact ⟨_, _, rfl⟩

/-! ### the maximum -/

/-- Every launch has a run. -/
theorem C146_run_exists (fmax : β → β → β) {T : ℕ} (progs : Fin T → List (A × β)) (m : A → β) :
    ∃ m' rets, CasRun fmax progs m m' rets := by
  have key : ∀ (w : ℕ) (c : (A → β) × (Fin T → CasThread A β)), casWork c = w →
      ∃ c', Steps (casStep fmax) c c' ∧ Halted (casStep fmax) c' := by
    intro w
    induction w using Nat.strong_induction_on with
    | _ w ih =>
      intro c hc
      by_cases hh : Halted (casStep fmax) c
      · exact ⟨c, .refl c, hh⟩
      · unfold Halted at hh
        push Not at hh
        obtain ⟨t, ht⟩ := hh
        obtain ⟨⟨s', l'⟩, hs⟩ := Option.ne_none_iff_exists'.mp ht
        have hlt := casWork_step fmax c.1 c.2 t s' l' hs
        obtain ⟨c', h1, h2⟩ := ih _ (by rw [← hc]; exact hlt) (s', Function.update c.2 t l') rfl
        refine ⟨c', ?_, h2⟩
        have h0 : Steps (casStep fmax) c (s', Function.update c.2 t l') := Steps.tail (.refl c) t hs
        clear hlt h2
        induction h1 with
        | refl => exact h0
        | tail _ t2 hs2 ih2 => exact Steps.tail ih2 t2 hs2
  obtain ⟨⟨m', ls⟩, h1, h2⟩ := key _ (m, fun t => ⟨progs t, none, []⟩) rfl
  exact ⟨m', _, ls, h1, h2, rfl⟩

end

/-- Specification of `fmaxf` on values: `none` is not a number. -/
def omax {K : Type*} [LinearOrder K] : Option K → Option K → Option K
  | none, y => y
  | x, none => x
  | some x, some y => some (max x y)

/-- **C146, the result.** `val` are the values of bit patterns, so that several patterns may stand for one value (signed
zeros) or for no number.  After all calls an address holds a number iff it held one before or one was given; and this
number is the largest of them. -/
theorem C146_max {A β K : Type*} [DecidableEq A] [DecidableEq β] [LinearOrder K] (val : β → Option K) (fmax : β → β → β)
    (hf : ∀ v e, val (fmax v e) = omax (val v) (val e)) {T : ℕ} (progs : Fin T → List (A × β)) (m m' : A → β)
    (rets : Fin T → List β) (h : CasRun fmax progs m m' rets) (a : A) (x : K) :
    val (m' a) = some x ↔
      (val (m a) = some x ∨ ∃ t, ∃ v, (a, v) ∈ progs t ∧ val v = some x) ∧
      (∀ y, val (m a) = some y → y ≤ x) ∧ ∀ t v, (a, v) ∈ progs t → ∀ y, val v = some y → y ≤ x := by
  obtain ⟨order, h1, h2, -⟩ := C146_atomic fmax progs m m' rets h
  have hmem : ∀ v, (∃ t, (a, v) ∈ progs t) ↔ ∃ t, (t, a, v) ∈ order := by
    intro v
    constructor
    · rintro ⟨t, ht⟩
      refine ⟨t.val, h1.perm.mem_iff.mpr (List.mem_flatten.mpr ⟨_, (List.mem_ofFn' _ _).mpr ⟨t, rfl⟩, ?_⟩)⟩
      exact List.mem_map.mpr ⟨(a, v), ht, rfl⟩
    · rintro ⟨t, ht⟩
      obtain ⟨l, hl, hv⟩ := List.mem_flatten.mp (h1.perm.mem_iff.mp ht)
      obtain ⟨t', rfl⟩ := (List.mem_ofFn' _ _).mp hl
      obtain ⟨c, hc, e⟩ := List.mem_map.mp hv
      simp only [Prod.mk.injEq] at e
      exact ⟨t', by rw [← e.2]; exact hc⟩
  have key : ∀ (order : List (ℕ × A × β)) (m : A → β), val ((seqCalls fmax m order).1 a) = some x ↔
      (val (m a) = some x ∨ ∃ v, (∃ t, (t, a, v) ∈ order) ∧ val v = some x) ∧
      (∀ y, val (m a) = some y → y ≤ x) ∧ ∀ v, (∃ t, (t, a, v) ∈ order) → ∀ y, val v = some y → y ≤ x := by
    intro order
    induction order with
    | nil =>
      intro m
      simp only [seqCalls]
      constructor
      · intro hx
        refine ⟨Or.inl hx, fun y hy => ?_, fun v hv => ?_⟩
        · rw [hx] at hy; exact (Option.some.inj hy).ge
        · obtain ⟨t, ht⟩ := hv; cases ht
      · rintro ⟨hx | ⟨v, ⟨t, ht⟩, _⟩, _⟩
        · exact hx
        · cases ht
    | cons c order ih =>
      intro m
      obtain ⟨t0, a0, v0⟩ := c
      simp only [seqCalls]
      rw [ih]
      by_cases ha : a = a0
      · subst ha
        rw [Function.update_self, hf]
        have hm : ∀ P : β → Prop, (∀ v, (∃ t, (t, a, v) ∈ (t0, a, v0) :: order) → P v) ↔
            P v0 ∧ ∀ v, (∃ t, (t, a, v) ∈ order) → P v := by
          intro P
          constructor
          · intro h
            exact ⟨h v0 ⟨t0, List.mem_cons_self ..⟩, fun v ⟨t, ht⟩ => h v ⟨t, List.mem_cons_of_mem _ ht⟩⟩
          · rintro ⟨h0, h⟩ v ⟨t, ht⟩
            rcases List.mem_cons.mp ht with e | ht
            · simp only [Prod.mk.injEq] at e
              rw [e.2.2]; exact h0
            · exact h v ⟨t, ht⟩
        have hm' : ∀ P : β → Prop, (∃ v, (∃ t, (t, a, v) ∈ (t0, a, v0) :: order) ∧ P v) ↔
            P v0 ∨ ∃ v, (∃ t, (t, a, v) ∈ order) ∧ P v := by
          intro P
          have := hm (fun v => ¬ P v)
          constructor
          · rintro ⟨v, hv, hp⟩
            by_contra hcon
            push Not at hcon
            exact this.mpr ⟨hcon.1, fun v hv => hcon.2 v hv⟩ v hv hp
          · rintro (hp | ⟨v, ⟨t, ht⟩, hp⟩)
            · exact ⟨v0, ⟨t0, List.mem_cons_self ..⟩, hp⟩
            · exact ⟨v, ⟨t, List.mem_cons_of_mem _ ht⟩, hp⟩
        rw [hm, hm']
        generalize (∃ v, (∃ t, (t, a, v) ∈ order) ∧ val v = some x) = P
        generalize (∀ v, (∃ t, (t, a, v) ∈ order) → ∀ y, val v = some y → y ≤ x) = Q
        cases hv : val v0 with
        | none =>
          cases he : val (m a) with
          | none => simp [omax]
          | some e => simp [omax]
        | some w =>
          cases he : val (m a) with
          | none => simp [omax]
          | some e =>
            simp only [omax, Option.some.injEq, forall_eq']
            rcases le_total w e with hle | hle
            · rw [max_eq_right hle]
              constructor
              · rintro ⟨h1 | h1, h2, h3⟩
                · exact ⟨Or.inl h1, h2, hle.trans h2, h3⟩
                · exact ⟨Or.inr (Or.inr h1), h2, hle.trans h2, h3⟩
              · rintro ⟨h1 | h1 | h1, h2, h3, h4⟩
                · exact ⟨Or.inl h1, h2, h4⟩
                · exact ⟨Or.inl (le_antisymm h2 (h1 ▸ hle)), h2, h4⟩
                · exact ⟨Or.inr h1, h2, h4⟩
            · rw [max_eq_left hle]
              constructor
              · rintro ⟨h1 | h1, h2, h3⟩
                · exact ⟨Or.inr (Or.inl h1), hle.trans h2, h2, h3⟩
                · exact ⟨Or.inr (Or.inr h1), hle.trans h2, h2, h3⟩
              · rintro ⟨h1 | h1 | h1, h2, h3, h4⟩
                · exact ⟨Or.inl (le_antisymm h3 (h1 ▸ hle)), h3, h4⟩
                · exact ⟨Or.inl h1, h3, h4⟩
                · exact ⟨Or.inr h1, h3, h4⟩
      · rw [Function.update_of_ne ha]
        have hm : ∀ v, (∃ t, (t, a, v) ∈ (t0, a0, v0) :: order) ↔ ∃ t, (t, a, v) ∈ order := by
          intro v
          simp [ha]
        simp only [hm]
  rw [h2, key]
  simp only [← hmem]
  constructor
  · rintro ⟨h1, h3, h4⟩
    refine ⟨?_, h3, fun t v hv => h4 v ⟨t, hv⟩⟩
    rcases h1 with h1 | ⟨v, ⟨t, ht⟩, hx⟩
    · exact Or.inl h1
    · exact Or.inr ⟨t, v, ht, hx⟩
  · rintro ⟨h1, h3, h4⟩
    refine ⟨?_, h3, fun v ⟨t, hv⟩ => h4 t v hv⟩
    rcases h1 with h1 | ⟨t, v, ht, hx⟩
    · exact Or.inl h1
    · exact Or.inr ⟨v, ⟨t, ht⟩, hx⟩

/-- **C146, the returned value is not the documented one.** One call with 1 on an address that holds 0 stores 1 and
returns 0. -/
theorem C146_returns_false : ¬ ∀ (T : ℕ) (progs : Fin T → List (Unit × ℤ)) (m m' : Unit → ℤ) (rets : Fin T → List ℤ),
    CasRun (fun v e => max v e) progs m m' rets → ∀ t, progs t = [((), 1)] → rets t = [m' ()] := by
  intro h
  obtain ⟨m', rets, hr⟩ := C146_run_exists (fun v e : ℤ => max v e) (fun _ : Fin 1 => [((), 1)]) (fun _ => 0)
  have h1 := h 1 _ _ m' rets hr 0 rfl
  obtain ⟨order, h2, h3, h4⟩ := C146_atomic _ _ _ _ _ hr
  have h5 : order = [(0, (), 1)] := by
    have := h2.perm
    exact List.perm_singleton.mp (this.trans (by simp [tagged]))
  subst h5
  have h6 := h4 0
  rw [h1, h3] at h6
  simp [seqCalls] at h6

/-- A case with contention: two threads, three calls on one address. -/
example : ∃ m' rets, CasRun (fun v e : ℤ => max v e) ![[((), 5), ((), 2)], [((), 7)]] (fun _ => 3) m' rets ∧ m' () = 7 := by
  obtain ⟨m', rets, hr⟩ := C146_run_exists (fun v e : ℤ => max v e) ![[((), 5), ((), 2)], [((), 7)]] (fun _ => 3)
  refine ⟨m', rets, hr, ?_⟩
  have := (C146_max some (fun v e : ℤ => max v e) (fun _ _ => rfl) _ _ m' rets hr () 7).mpr (by
    refine ⟨Or.inr ⟨1, 7, by simp, rfl⟩, by simp, ?_⟩
    intro t v hv y hy
    fin_cases t <;> simp at hv hy <;> omega)
  simpa using this

end PC
