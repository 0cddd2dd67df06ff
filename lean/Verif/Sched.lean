import Mathlib.Data.List.Perm.Basic
import Mathlib.Data.List.Nodup
import Mathlib.Data.List.Flatten
import Mathlib.Data.List.Range
import Mathlib.Tactic.Ring
import Mathlib.Tactic.Linarith

/-!
# Execution model of the CUDA kernels

Two models of a kernel launch are used.

* `Interleave`: every thread performs a fixed list of atomic actions (for
  kernels whose threads never read what other threads write, or only through
  commuting atomic additions).  A schedule is any interleaving of the lists.
* `Steps`: every thread has a local state and a step function on local and
  shared memory.  A schedule is any sequence of thread numbers.

Memory is sequentially consistent: one action (one read, one write or one
atomic operation) at a time.  Warps, caches and write tearing are not modelled.
-/

set_option linter.unusedVariables false

namespace PC

/-! ### grid-stride loops -/

/-- The loop `for (cur = t; cur < N; cur += T)` used by all kernels: the
sequence of values of `cur`.  (`T = 0` cannot happen in a running kernel.) -/
def strideLoop (T N : ℕ) (cur : ℕ) : List ℕ :=
  if h : cur < N ∧ 0 < T then cur :: strideLoop T N (cur + T) else []
termination_by N - cur
decreasing_by omega

theorem mem_strideLoop {T N : ℕ} (hT : 0 < T) (cur i : ℕ) :
    i ∈ strideLoop T N cur ↔ ∃ k, i = cur + k * T ∧ i < N := by
  induction hm : N - cur using Nat.strong_induction_on generalizing cur with
  | _ m ih =>
    rw [strideLoop]
    by_cases h : cur < N ∧ 0 < T
    · rw [dif_pos h, List.mem_cons, ih (N - (cur + T)) (by omega) (cur + T) rfl]
      constructor
      · rintro (rfl | ⟨k, rfl, hk⟩)
        · exact ⟨0, by ring, h.1⟩
        · exact ⟨k + 1, by ring, hk⟩
      · rintro ⟨k, rfl, hk⟩
        cases k with
        | zero => left; ring
        | succ k => right; exact ⟨k, by ring, hk⟩
    · rw [dif_neg h]
      constructor
      · intro h'; cases h'
      · rintro ⟨k, rfl, hk⟩
        have : 0 ≤ k * T := Nat.zero_le _
        omega

theorem nodup_strideLoop {T N : ℕ} (cur : ℕ) : (strideLoop T N cur).Nodup := by
  induction hm : N - cur using Nat.strong_induction_on generalizing cur with
  | _ m ih =>
    rw [strideLoop]
    by_cases h : cur < N ∧ 0 < T
    · rw [dif_pos h, List.nodup_cons]
      refine ⟨?_, ih (N - (cur + T)) (by omega) (cur + T) rfl⟩
      rw [mem_strideLoop h.2]
      rintro ⟨k, hk, _⟩
      have := h.2
      have : 0 ≤ k * T := Nat.zero_le _
      omega
    · rw [dif_neg h]; exact List.nodup_nil

/-- The iterations of all `T` threads of a launch together are `0, …, N-1`,
each once. -/
theorem strideLoop_cover {T N : ℕ} (hT : 0 < T) :
    ((List.range T).map (strideLoop T N)).flatten.Perm (List.range N) := by
  rw [List.perm_ext_iff_of_nodup _ List.nodup_range]
  · intro i
    rw [List.mem_flatten, List.mem_range]
    constructor
    · rintro ⟨l, hl, hi⟩
      obtain ⟨t, ht, rfl⟩ := List.mem_map.mp hl
      obtain ⟨k, _, h⟩ := (mem_strideLoop hT t i).mp hi
      exact h
    · intro h
      refine ⟨_, List.mem_map.mpr ⟨i % T, List.mem_range.mpr (Nat.mod_lt _ hT), rfl⟩, ?_⟩
      rw [mem_strideLoop hT]
      exact ⟨i / T, by rw [Nat.mul_comm]; exact (Nat.mod_add_div i T).symm, h⟩
  · rw [List.nodup_flatten]
    constructor
    · intro l hl
      obtain ⟨t, ht, rfl⟩ := List.mem_map.mp hl
      exact nodup_strideLoop t
    · rw [List.pairwise_map]
      have hnd : (List.range T).Nodup := List.nodup_range
      rw [List.Nodup] at hnd
      refine hnd.imp_of_mem ?_
      intro a b ha hb hab
      rw [List.disjoint_left]
      intro i hi hi'
      obtain ⟨k, hk, _⟩ := (mem_strideLoop hT a i).mp hi
      obtain ⟨k', hk', _⟩ := (mem_strideLoop hT b i).mp hi'
      apply hab
      have e1 : i % T = a := by
        rw [hk, Nat.add_mul_mod_self_right, Nat.mod_eq_of_lt (List.mem_range.mp ha)]
      have e2 : i % T = b := by
        rw [hk', Nat.add_mul_mod_self_right, Nat.mod_eq_of_lt (List.mem_range.mp hb)]
      omega

/-! ### interleavings of action lists -/

/-- `Interleave ps tr`: the trace `tr` performs all actions of the threads `ps`,
the actions of each thread in its program order, in some schedule. -/
inductive Interleave {α : Type*} : List (List α) → List α → Prop
  | done {ps : List (List α)} (h : ∀ p ∈ ps, p = []) : Interleave ps []
  | step {ps : List (List α)} {tr : List α} (t : ℕ) (a : α) (rest : List α)
      (h : ps[t]? = some (a :: rest)) (next : Interleave (ps.set t rest) tr) :
      Interleave ps (a :: tr)

theorem flatten_set_perm {α : Type*} (ps : List (List α)) (t : ℕ) (a : α) (rest : List α)
    (h : ps[t]? = some (a :: rest)) : ps.flatten.Perm (a :: (ps.set t rest).flatten) := by
  induction ps generalizing t with
  | nil => simp at h
  | cons p ps ih =>
    cases t with
    | zero =>
      simp only [List.getElem?_cons_zero, Option.some.injEq] at h
      subst h
      simp
    | succ t =>
      simp only [List.getElem?_cons_succ] at h
      simp only [List.set_cons_succ, List.flatten_cons]
      exact ((ih t h).append_left p).trans List.perm_middle

/-- A trace performs exactly the actions of all threads, each once. -/
theorem Interleave.perm {α : Type*} {ps : List (List α)} {tr : List α} (h : Interleave ps tr) :
    tr.Perm ps.flatten := by
  induction h with
  | done h => rw [List.flatten_eq_nil_iff.mpr h]
  | step t a rest h next ih => exact (ih.cons a).trans (flatten_set_perm _ t a rest h).symm

/-- Every set of threads has at least one schedule (one thread after the other). -/
theorem Interleave.exists_seq {α : Type*} (ps : List (List α)) : Interleave ps ps.flatten := by
  induction hm : ps.flatten generalizing ps with
  | nil => exact .done (List.flatten_eq_nil_iff.mp hm)
  | cons a tr ih =>
    induction ps with
    | nil => simp at hm
    | cons p ps ihp =>
      cases p with
      | nil =>
        have key : ∀ (qs : List (List α)) (tr' : List α), Interleave qs tr' →
            Interleave ([] :: qs) tr' := by
          intro qs tr' h
          induction h with
          | done h =>
            refine .done ?_
            intro p hp
            rcases List.mem_cons.mp hp with rfl | hp
            · rfl
            · exact h p hp
          | step t a rest h next ih => exact .step (t + 1) a rest (by simpa using h) (by simpa using ih)
        exact key _ _ (ihp (by simpa using hm))
      | cons b rest =>
        have e : b = a ∧ rest ++ ps.flatten = tr := by simpa using hm
        obtain ⟨rfl, e⟩ := e
        exact .step 0 b rest (by simp) (by simpa using ih (rest :: ps) (by simpa using e))

/-- The actions of a kernel with a grid-stride loop: thread `t` of `T` performs
`body cur` for its values of `cur`. -/
def strideThreads {α : Type*} (T N : ℕ) (body : ℕ → List α) : List (List α) :=
  (List.range T).map (fun t => (strideLoop T N t).flatMap body)

/-- All actions of a grid-stride kernel, in any schedule, are those of all
iterations. -/
theorem strideThreads_perm {α : Type*} {T N : ℕ} (hT : 0 < T) (body : ℕ → List α) {tr : List α}
    (h : Interleave (strideThreads T N body) tr) : tr.Perm ((List.range N).flatMap body) := by
  refine h.perm.trans ?_
  have e : (strideThreads T N body).flatten =
      ((List.range T).map (strideLoop T N)).flatten.flatMap body := by
    unfold strideThreads
    generalize List.range T = l
    induction l with
    | nil => rfl
    | cons a l ih => simp only [List.map_cons, List.flatten_cons, List.flatMap_append, ih]
  rw [e]
  exact (strideLoop_cover hT).flatMap_right body

/-! ### plain writes -/

/-- Memory after a sequence of writes `(address, value)`, the last one counts. -/
def runWrites {A V : Type*} [DecidableEq A] (m : A → V) (tr : List (A × V)) : A → V :=
  tr.foldl (fun m w => Function.update m w.1 w.2) m

theorem runWrites_not_mem {A V : Type*} [DecidableEq A] (m : A → V) (tr : List (A × V)) (a : A)
    (h : ∀ w ∈ tr, w.1 ≠ a) : runWrites m tr a = m a := by
  unfold runWrites
  induction tr generalizing m with
  | nil => rfl
  | cons w tr ih =>
    rw [List.foldl_cons, ih _ (fun w' h' => h w' (List.mem_cons_of_mem _ h'))]
    exact Function.update_of_ne (fun e => h w List.mem_cons_self e.symm) _ _

/-- If all writes to an address write the same value, and there is one, the
memory holds it at the end. -/
theorem runWrites_mem {A V : Type*} [DecidableEq A] (m : A → V) (tr : List (A × V)) (a : A) (v : V)
    (hm : (a, v) ∈ tr) (h : ∀ w ∈ tr, w.1 = a → w.2 = v) : runWrites m tr a = v := by
  unfold runWrites
  induction tr generalizing m with
  | nil => simp at hm
  | cons w tr ih =>
    rw [List.foldl_cons]
    by_cases hx : ∃ w' ∈ tr, w'.1 = a
    · obtain ⟨w', hw', e⟩ := hx
      have : w'.2 = v := h w' (List.mem_cons_of_mem _ hw') e
      refine ih _ ?_ (fun w'' h'' => h w'' (List.mem_cons_of_mem _ h''))
      rw [← e, ← this]; exact hw'
    · push Not at hx
      have hw : w = (a, v) := by
        rcases List.mem_cons.mp hm with h' | h'
        · exact h'.symm
        · exact absurd rfl (hx _ h')
      have := runWrites_not_mem (Function.update m w.1 w.2) tr a hx
      unfold runWrites at this
      rw [this, hw]
      exact Function.update_self _ _ _

/-! ### step systems -/

/-- One scheduler step: thread `t` performs its next action.  `step` returns
`none` when the thread has finished. -/
inductive Steps {S L : Type*} {T : ℕ} (step : S → L → Option (S × L)) :
    S × (Fin T → L) → S × (Fin T → L) → Prop
  | refl (c : S × (Fin T → L)) : Steps step c c
  | tail {c : S × (Fin T → L)} {s : S} {ls : Fin T → L} (h : Steps step c (s, ls)) (t : Fin T)
      {s' : S} {l' : L} (hs : step s (ls t) = some (s', l')) :
      Steps step c (s', Function.update ls t l')

/-- All threads have finished. -/
def Halted {S L : Type*} {T : ℕ} (step : S → L → Option (S × L)) (c : S × (Fin T → L)) : Prop :=
  ∀ t, step c.1 (c.2 t) = none

/-- Induction over schedules. -/
theorem Steps.invariant {S L : Type*} {T : ℕ} {step : S → L → Option (S × L)}
    (I : S × (Fin T → L) → Prop) {c c' : S × (Fin T → L)} (h : Steps step c c') (h0 : I c)
    (hs : ∀ s ls t s' l', I (s, ls) → step s (ls t) = some (s', l') →
      I (s', Function.update ls t l')) : I c' := by
  induction h with
  | refl => exact h0
  | tail h t hst ih => exact hs _ _ t _ _ ih hst

end PC
