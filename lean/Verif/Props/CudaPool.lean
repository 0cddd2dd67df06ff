import Verif.CudaPool
import Verif.CudaSamplingLemmas

/-!
# C173: selected points are copied once, with their own batch ids and indices, in every schedule
-/

set_option linter.unusedVariables false

namespace PC

variable {P : Type*}

/-- Invariant of the launch: `L` lists the points in the order of their atomic additions. -/
structure PoolInv (sel : ℕ → ℤ) (pts : ℕ → P) (batch : ℕ → ℤ) (N : ℕ) {T : ℕ} (c : PoolMem P × (Fin T → PoolThread)) (L : List ℕ) : Prop where
  len : L.length = c.1.cnt
  perm : (L : Multiset ℕ) + ∑ t, (((c.2 t).todo.filter (fun i => sel i = 1) : List ℕ) : Multiset ℕ) =
    ((List.range N).filter (fun i => sel i = 1) : List ℕ)
  atPts : ∀ t i s, (c.2 t).cur = .pts i s → L[s]? = some i
  atBatch : ∀ t i s, (c.2 t).cur = .batch i s → L[s]? = some i
  atIdx : ∀ t i s, (c.2 t).cur = .idx i s → L[s]? = some i
  wPts : ∀ s x, c.1.pts s = some x → ∃ i, L[s]? = some i ∧ x = pts i
  wBatch : ∀ s x, c.1.batch s = some x → ∃ i, L[s]? = some i ∧ x = batch i
  wIdx : ∀ s x, c.1.idx s = some x → L[s]? = some x
  donePts : ∀ s i, L[s]? = some i → c.1.pts s = some (pts i) ∨ ∃ t, (c.2 t).cur = .pts i s
  doneBatch : ∀ s i, L[s]? = some i → c.1.batch s = some (batch i) ∨ ∃ t, (c.2 t).cur = .pts i s ∨ (c.2 t).cur = .batch i s
  doneIdx : ∀ s i, L[s]? = some i → c.1.idx s = some i ∨
    ∃ t, (c.2 t).cur = .pts i s ∨ (c.2 t).cur = .batch i s ∨ (c.2 t).cur = .idx i s

theorem sum_todo_update {T : ℕ} (ls : Fin T → PoolThread) (t : Fin T) (l' : PoolThread) (f : PoolThread → Multiset ℕ) (a : Multiset ℕ)
    (h : f (ls t) = a + f l') : a + ∑ u, f (Function.update ls t l' u) = ∑ u, f (ls u) := by
  rw [← Finset.add_sum_erase _ _ (Finset.mem_univ t), ← Finset.add_sum_erase _ (fun u => f (ls u)) (Finset.mem_univ t)]
  rw [Function.update_self, h, add_assoc]
  congr 2
  refine Finset.sum_congr rfl fun u hu => ?_
  rw [Function.update_of_ne (Finset.ne_of_mem_erase hu)]

theorem poolInv_step {sel : ℕ → ℤ} {pts : ℕ → P} {batch : ℕ → ℤ} {N T : ℕ} {m : PoolMem P} {ls : Fin T → PoolThread} {t : Fin T}
    {m' : PoolMem P} {l' : PoolThread} {L : List ℕ} (h : PoolInv sel pts batch N (m, ls) L) (hs : poolStep sel pts batch m (ls t) = some (m', l')) :
    ∃ L', PoolInv sel pts batch N (m', Function.update ls t l') L' := by
  obtain ⟨todo, cur, hl⟩ : ∃ todo cur, ls t = ⟨todo, cur⟩ := ⟨_, _, rfl⟩
  rw [hl] at hs
  have hcur : (ls t).cur = cur := by rw [hl]
  have other : ∀ u, u ≠ t → Function.update ls t l' u = ls u := fun u hu => Function.update_of_ne hu _ _
  have self : Function.update ls t l' t = l' := Function.update_self _ _ _
  have hsum := sum_todo_update ls t l' (fun l => ((l.todo.filter (fun i => sel i = 1) : List ℕ) : Multiset ℕ))
  cases cur with
  | idle =>
    cases todo with
    | nil => cases hs
    | cons i rest =>
      by_cases hi : sel i = 1
      · have hs : (if sel i = 1 then some ({ m with cnt := m.cnt + 1 }, ⟨rest, .pts i m.cnt⟩) else some (m, ⟨rest, .idle⟩)) = some (m', l') := hs
        rw [if_pos hi] at hs
        obtain ⟨rfl, rfl⟩ := Prod.mk.inj (Option.some.inj hs)
        have hnew : ∀ s j : ℕ, L[s]? = some j → (L ++ [i])[s]? = some j := by
          intro s j hj
          obtain ⟨hlt, _⟩ := List.getElem?_eq_some_iff.1 hj
          rw [List.getElem?_append_left hlt]
          exact hj
        have hlast : (L ++ [i])[m.cnt]? = some i := by
          have : m.cnt = L.length := h.len.symm
          rw [this, List.getElem?_append_right le_rfl]
          simp
        have hcase : ∀ s j : ℕ, (L ++ [i])[s]? = some j → L[s]? = some j ∨ (s = m.cnt ∧ j = i) := by
          intro s j hj
          by_cases hlt : s < L.length
          · rw [List.getElem?_append_left hlt] at hj
            exact Or.inl hj
          · rw [List.getElem?_append_right (by omega)] at hj
            obtain ⟨h1, h2⟩ := List.getElem?_eq_some_iff.1 hj
            have h3 : s - L.length = 0 := by simpa using h1
            have h4 : s = m.cnt := by have : L.length = m.cnt := h.len; omega
            refine Or.inr ⟨h4, ?_⟩
            rw [h3] at hj
            simpa using hj.symm
        refine ⟨L ++ [i], ?_, ?_, ?_, ?_, ?_, ?_, ?_, ?_, ?_, ?_, ?_⟩
        · show (L ++ [i]).length = m.cnt + 1
          have : L.length = m.cnt := h.len
          simp [this]
        · rw [← h.perm]
          have := hsum ({i} : Multiset ℕ) (by
            rw [hl]
            show ((List.filter _ (i :: rest) : List ℕ) : Multiset ℕ) = {i} + ((List.filter _ rest : List ℕ) : Multiset ℕ)
            rw [List.filter_cons_of_pos (by simpa using hi)]
            rfl)
          rw [← Multiset.coe_add, add_assoc]
          exact congrArg ((L : Multiset ℕ) + ·) this
        · intro u j s hu
          by_cases e : u = t
          · subst e
            have hu : (Function.update ls u ⟨rest, .pts i m.cnt⟩ u).cur = .pts j s := hu
            rw [self] at hu
            obtain ⟨rfl, rfl⟩ := PoolCur.pts.inj hu
            exact hlast
          · refine hnew _ _ (h.atPts u j s ?_)
            have hu : (Function.update ls t ⟨rest, .pts i m.cnt⟩ u).cur = .pts j s := hu
            rwa [other u e] at hu
        · intro u j s hu
          by_cases e : u = t
          · subst e
            have hu : (Function.update ls u ⟨rest, .pts i m.cnt⟩ u).cur = .batch j s := hu
            rw [self] at hu
            cases hu
          · refine hnew _ _ (h.atBatch u j s ?_)
            have hu : (Function.update ls t ⟨rest, .pts i m.cnt⟩ u).cur = .batch j s := hu
            rwa [other u e] at hu
        · intro u j s hu
          by_cases e : u = t
          · subst e
            have hu : (Function.update ls u ⟨rest, .pts i m.cnt⟩ u).cur = .idx j s := hu
            rw [self] at hu
            cases hu
          · refine hnew _ _ (h.atIdx u j s ?_)
            have hu : (Function.update ls t ⟨rest, .pts i m.cnt⟩ u).cur = .idx j s := hu
            rwa [other u e] at hu
        · intro s x hx
          obtain ⟨j, h1, h2⟩ := h.wPts s x hx
          exact ⟨j, hnew _ _ h1, h2⟩
        · intro s x hx
          obtain ⟨j, h1, h2⟩ := h.wBatch s x hx
          exact ⟨j, hnew _ _ h1, h2⟩
        · intro s x hx
          exact hnew _ _ (h.wIdx s x hx)
        · intro s j hj
          rcases hcase s j hj with hj | ⟨rfl, rfl⟩
          · refine (h.donePts s j hj).imp id ?_
            rintro ⟨u, hu⟩
            have e : u ≠ t := by
              rintro rfl
              rw [hcur] at hu
              cases hu
            exact ⟨u, by show (Function.update ls t _ u).cur = _; rw [other u e]; exact hu⟩
          · exact Or.inr ⟨t, by show (Function.update ls t _ t).cur = _; rw [self]⟩
        · intro s j hj
          rcases hcase s j hj with hj | ⟨rfl, rfl⟩
          · refine (h.doneBatch s j hj).imp id ?_
            rintro ⟨u, hu⟩
            have e : u ≠ t := by
              rintro rfl
              rw [hcur] at hu
              rcases hu with hu | hu <;> cases hu
            exact ⟨u, by show (Function.update ls t _ u).cur = _ ∨ (Function.update ls t _ u).cur = _; rw [other u e]; exact hu⟩
          · exact Or.inr ⟨t, Or.inl (by show (Function.update ls t _ t).cur = _; rw [self])⟩
        · intro s j hj
          rcases hcase s j hj with hj | ⟨rfl, rfl⟩
          · refine (h.doneIdx s j hj).imp id ?_
            rintro ⟨u, hu⟩
            have e : u ≠ t := by
              rintro rfl
              rw [hcur] at hu
              rcases hu with hu | hu | hu <;> cases hu
            refine ⟨u, ?_⟩
            show (Function.update ls t _ u).cur = _ ∨ (Function.update ls t _ u).cur = _ ∨ (Function.update ls t _ u).cur = _
            rw [other u e]
            exact hu
          · exact Or.inr ⟨t, Or.inl (by show (Function.update ls t _ t).cur = _; rw [self])⟩
      · have hs : (if sel i = 1 then some ({ m with cnt := m.cnt + 1 }, ⟨rest, .pts i m.cnt⟩) else some (m, ⟨rest, .idle⟩)) = some (m', l') := hs
        rw [if_neg hi] at hs
        obtain ⟨rfl, rfl⟩ := Prod.mk.inj (Option.some.inj hs)
        have hc : ∀ u, (Function.update ls t ⟨rest, .idle⟩ u).cur = (ls u).cur := by
          intro u
          by_cases e : u = t
          · subst e; rw [self, hcur]
          · rw [other u e]
        refine ⟨L, h.len, ?_, ?_, ?_, ?_, h.wPts, h.wBatch, h.wIdx, ?_, ?_, ?_⟩
        · rw [← h.perm]
          have := hsum 0 (by
            rw [hl]
            show ((List.filter _ (i :: rest) : List ℕ) : Multiset ℕ) = 0 + ((List.filter _ rest : List ℕ) : Multiset ℕ)
            rw [List.filter_cons_of_neg (by simpa using hi), zero_add])
          rw [zero_add] at this
          exact congrArg ((L : Multiset ℕ) + ·) this
        · intro u j s hu
          exact h.atPts u j s ((hc u).symm.trans hu)
        · intro u j s hu
          exact h.atBatch u j s ((hc u).symm.trans hu)
        · intro u j s hu
          exact h.atIdx u j s ((hc u).symm.trans hu)
        · intro s j hj
          exact (h.donePts s j hj).imp id fun ⟨u, hu⟩ => ⟨u, (hc u).trans hu⟩
        · intro s j hj
          exact (h.doneBatch s j hj).imp id fun ⟨u, hu⟩ => ⟨u, hu.imp (hc u).trans (hc u).trans⟩
        · intro s j hj
          exact (h.doneIdx s j hj).imp id fun ⟨u, hu⟩ => ⟨u, hu.imp (hc u).trans (Or.imp (hc u).trans (hc u).trans)⟩
  | pts i s0 =>
    obtain ⟨rfl, rfl⟩ := Prod.mk.inj (Option.some.inj hs)
    have hL := h.atPts t i s0 hcur
    have hother : ∀ u, (Function.update ls t ⟨todo, .batch i s0⟩ u).cur = if u = t then .batch i s0 else (ls u).cur := by
      intro u
      by_cases e : u = t
      · subst e; rw [self, if_pos rfl]
      · rw [other u e, if_neg e]
    refine ⟨L, h.len, ?_, ?_, ?_, ?_, ?_, h.wBatch, h.wIdx, ?_, ?_, ?_⟩
    · rw [← h.perm]
      have := hsum 0 (by rw [hl, zero_add])
      rw [zero_add] at this
      exact congrArg ((L : Multiset ℕ) + ·) this
    · intro u j s hu
      have hu := (hother u).symm.trans hu
      split at hu
      · cases hu
      · exact h.atPts u j s hu
    · intro u j s hu
      have hu := (hother u).symm.trans hu
      split at hu
      · obtain ⟨rfl, rfl⟩ := PoolCur.batch.inj hu
        exact hL
      · exact h.atBatch u j s hu
    · intro u j s hu
      have hu := (hother u).symm.trans hu
      split at hu
      · cases hu
      · exact h.atIdx u j s hu
    · intro s x hx
      have hx : Function.update m.pts s0 (some (pts i)) s = some x := hx
      by_cases e : s = s0
      · subst e
        rw [Function.update_self] at hx
        exact ⟨i, hL, (Option.some.inj hx).symm⟩
      · rw [Function.update_of_ne e] at hx
        exact h.wPts s x hx
    · intro s j hj
      show Function.update m.pts s0 (some (pts i)) s = some (pts j) ∨ _
      by_cases e : s = s0
      · subst e
        rw [hL] at hj
        rw [Function.update_self, Option.some.inj hj]
        exact Or.inl rfl
      · rw [Function.update_of_ne e]
        refine (h.donePts s j hj).imp id ?_
        rintro ⟨u, hu⟩
        have e' : u ≠ t := by
          rintro rfl
          rw [hcur] at hu
          exact e (PoolCur.pts.inj hu).2.symm
        exact ⟨u, (hother u).trans ((if_neg e').trans hu)⟩
    · intro s j hj
      refine (h.doneBatch s j hj).imp id ?_
      rintro ⟨u, hu⟩
      by_cases e' : u = t
      · subst e'
        rw [hcur] at hu
        rcases hu with hu | hu
        · obtain ⟨rfl, rfl⟩ := PoolCur.pts.inj hu
          exact ⟨u, Or.inr ((hother u).trans (if_pos rfl))⟩
        · cases hu
      · exact ⟨u, hu.imp (fun x => (hother u).trans ((if_neg e').trans x)) (fun x => (hother u).trans ((if_neg e').trans x))⟩
    · intro s j hj
      refine (h.doneIdx s j hj).imp id ?_
      rintro ⟨u, hu⟩
      by_cases e' : u = t
      · subst e'
        rw [hcur] at hu
        rcases hu with hu | hu | hu
        · obtain ⟨rfl, rfl⟩ := PoolCur.pts.inj hu
          exact ⟨u, Or.inr (Or.inl ((hother u).trans (if_pos rfl)))⟩
        · cases hu
        · cases hu
      · exact ⟨u, hu.imp (fun x => (hother u).trans ((if_neg e').trans x)) (Or.imp (fun x => (hother u).trans ((if_neg e').trans x))
          (fun x => (hother u).trans ((if_neg e').trans x)))⟩
  | batch i s0 =>
    obtain ⟨rfl, rfl⟩ := Prod.mk.inj (Option.some.inj hs)
    have hL := h.atBatch t i s0 hcur
    have hother : ∀ u, (Function.update ls t ⟨todo, .idx i s0⟩ u).cur = if u = t then .idx i s0 else (ls u).cur := by
      intro u
      by_cases e : u = t
      · subst e; rw [self, if_pos rfl]
      · rw [other u e, if_neg e]
    refine ⟨L, h.len, ?_, ?_, ?_, ?_, h.wPts, ?_, h.wIdx, ?_, ?_, ?_⟩
    · rw [← h.perm]
      have := hsum 0 (by rw [hl, zero_add])
      rw [zero_add] at this
      exact congrArg ((L : Multiset ℕ) + ·) this
    · intro u j s hu
      have hu := (hother u).symm.trans hu
      split at hu
      · cases hu
      · exact h.atPts u j s hu
    · intro u j s hu
      have hu := (hother u).symm.trans hu
      split at hu
      · cases hu
      · exact h.atBatch u j s hu
    · intro u j s hu
      have hu := (hother u).symm.trans hu
      split at hu
      · obtain ⟨rfl, rfl⟩ := PoolCur.idx.inj hu
        exact hL
      · exact h.atIdx u j s hu
    · intro s x hx
      have hx : Function.update m.batch s0 (some (batch i)) s = some x := hx
      by_cases e : s = s0
      · subst e
        rw [Function.update_self] at hx
        exact ⟨i, hL, (Option.some.inj hx).symm⟩
      · rw [Function.update_of_ne e] at hx
        exact h.wBatch s x hx
    · intro s j hj
      refine (h.donePts s j hj).imp id ?_
      rintro ⟨u, hu⟩
      have e' : u ≠ t := by
        rintro rfl
        rw [hcur] at hu
        cases hu
      exact ⟨u, (hother u).trans ((if_neg e').trans hu)⟩
    · intro s j hj
      show Function.update m.batch s0 (some (batch i)) s = some (batch j) ∨ _
      by_cases e : s = s0
      · subst e
        rw [hL] at hj
        rw [Function.update_self, Option.some.inj hj]
        exact Or.inl rfl
      · rw [Function.update_of_ne e]
        refine (h.doneBatch s j hj).imp id ?_
        rintro ⟨u, hu⟩
        have e' : u ≠ t := by
          rintro rfl
          rw [hcur] at hu
          rcases hu with hu | hu
          · cases hu
          · exact e (PoolCur.batch.inj hu).2.symm
        exact ⟨u, hu.imp (fun x => (hother u).trans ((if_neg e').trans x)) (fun x => (hother u).trans ((if_neg e').trans x))⟩
    · intro s j hj
      refine (h.doneIdx s j hj).imp id ?_
      rintro ⟨u, hu⟩
      by_cases e' : u = t
      · subst e'
        rw [hcur] at hu
        rcases hu with hu | hu | hu
        · cases hu
        · obtain ⟨rfl, rfl⟩ := PoolCur.batch.inj hu
          exact ⟨u, Or.inr (Or.inr ((hother u).trans (if_pos rfl)))⟩
        · cases hu
      · exact ⟨u, hu.imp (fun x => (hother u).trans ((if_neg e').trans x)) (Or.imp (fun x => (hother u).trans ((if_neg e').trans x))
          (fun x => (hother u).trans ((if_neg e').trans x)))⟩
  | idx i s0 =>
    obtain ⟨rfl, rfl⟩ := Prod.mk.inj (Option.some.inj hs)
    have hL := h.atIdx t i s0 hcur
    have hother : ∀ u, (Function.update ls t ⟨todo, .idle⟩ u).cur = if u = t then .idle else (ls u).cur := by
      intro u
      by_cases e : u = t
      · subst e; rw [self, if_pos rfl]
      · rw [other u e, if_neg e]
    refine ⟨L, h.len, ?_, ?_, ?_, ?_, h.wPts, h.wBatch, ?_, ?_, ?_, ?_⟩
    · rw [← h.perm]
      have := hsum 0 (by rw [hl, zero_add])
      rw [zero_add] at this
      exact congrArg ((L : Multiset ℕ) + ·) this
    · intro u j s hu
      have hu := (hother u).symm.trans hu
      split at hu
      · cases hu
      · exact h.atPts u j s hu
    · intro u j s hu
      have hu := (hother u).symm.trans hu
      split at hu
      · cases hu
      · exact h.atBatch u j s hu
    · intro u j s hu
      have hu := (hother u).symm.trans hu
      split at hu
      · cases hu
      · exact h.atIdx u j s hu
    · intro s x hx
      have hx : Function.update m.idx s0 (some i) s = some x := hx
      by_cases e : s = s0
      · subst e
        rw [Function.update_self] at hx
        rw [← Option.some.inj hx]
        exact hL
      · rw [Function.update_of_ne e] at hx
        exact h.wIdx s x hx
    · intro s j hj
      refine (h.donePts s j hj).imp id ?_
      rintro ⟨u, hu⟩
      have e' : u ≠ t := by
        rintro rfl
        rw [hcur] at hu
        cases hu
      exact ⟨u, (hother u).trans ((if_neg e').trans hu)⟩
    · intro s j hj
      refine (h.doneBatch s j hj).imp id ?_
      rintro ⟨u, hu⟩
      have e' : u ≠ t := by
        rintro rfl
        rw [hcur] at hu
        rcases hu with hu | hu <;> cases hu
      exact ⟨u, hu.imp (fun x => (hother u).trans ((if_neg e').trans x)) (fun x => (hother u).trans ((if_neg e').trans x))⟩
    · intro s j hj
      show Function.update m.idx s0 (some i) s = some j ∨ _
      by_cases e : s = s0
      · subst e
        rw [hL] at hj
        rw [Function.update_self, Option.some.inj hj]
        exact Or.inl rfl
      · rw [Function.update_of_ne e]
        refine (h.doneIdx s j hj).imp id ?_
        rintro ⟨u, hu⟩
        have e' : u ≠ t := by
          rintro rfl
          rw [hcur] at hu
          rcases hu with hu | hu | hu
          · cases hu
          · cases hu
          · exact e (PoolCur.idx.inj hu).2.symm
        exact ⟨u, hu.imp (fun x => (hother u).trans ((if_neg e').trans x)) (Or.imp (fun x => (hother u).trans ((if_neg e').trans x))
          (fun x => (hother u).trans ((if_neg e').trans x)))⟩

theorem poolInv_start (sel : ℕ → ℤ) (pts : ℕ → P) (batch : ℕ → ℤ) (N : ℕ) {T : ℕ} (hT : 0 < T) :
    PoolInv sel pts batch N (poolStart N T) [] := by
  refine ⟨rfl, ?_, ?_, ?_, ?_, ?_, ?_, ?_, ?_, ?_, ?_⟩
  · rw [Multiset.coe_nil, zero_add]
    refine (sum_coe_flatten (fun t : ℕ => (strideLoop T N t).filter (fun i => sel i = 1))).trans ?_
    rw [Multiset.coe_eq_coe]
    have := (strideLoop_cover (N := N) hT).filter (fun i => decide (sel i = 1))
    rw [List.filter_flatten, List.map_map] at this
    exact this
  all_goals (intros; simp_all [poolStart])

theorem poolInv_run {sel : ℕ → ℤ} {pts : ℕ → P} {batch : ℕ → ℤ} {N T : ℕ} (hT : 0 < T) {c : PoolMem P × (Fin T → PoolThread)}
    (h : Steps (poolStep sel pts batch) (poolStart N T) c) : ∃ L, PoolInv sel pts batch N c L :=
  h.invariant (fun c => ∃ L, PoolInv sel pts batch N c L) ⟨[], poolInv_start sel pts batch N hT⟩
    (fun _ _ _ _ _ ⟨_, hL⟩ hs => poolInv_step hL hs)

/-- The selected points among the first `N`, in order. -/
def selected (sel : ℕ → ℤ) (N : ℕ) : List ℕ := (List.range N).filter (fun i => sel i = 1)

/-- **C173.** However the threads of the launch are scheduled, at its end the counter is the number of selected points, the three
output arrays hold at every position below it the coordinates, the batch id and the index of one and the same selected point, every
selected point appears exactly once, and nothing else is written. -/
theorem C173_copies {sel : ℕ → ℤ} {pts : ℕ → P} {batch : ℕ → ℤ} {N T : ℕ} (hT : 0 < T) {m : PoolMem P} {ls : Fin T → PoolThread}
    (h : Steps (poolStep sel pts batch) (poolStart N T) (m, ls)) (hh : Halted (poolStep sel pts batch) (m, ls)) :
    m.cnt = (selected sel N).length ∧ ∃ order : List ℕ, order.Perm (selected sel N) ∧
      (∀ s (hs : s < order.length), m.pts s = some (pts order[s]) ∧ m.batch s = some (batch order[s]) ∧ m.idx s = some order[s]) ∧
      ∀ s, order.length ≤ s → m.pts s = none ∧ m.batch s = none ∧ m.idx s = none := by
  obtain ⟨L, hL⟩ := poolInv_run hT h
  have hend : ∀ t, (ls t).todo = [] ∧ (ls t).cur = .idle := by
    intro t
    have := hh t
    unfold poolStep at this
    split at this
    · next h1 h2 => exact ⟨h2, h1⟩
    · split at this <;> cases this
    · cases this
    · cases this
    · cases this
  have hperm : L.Perm (selected sel N) := by
    have h1 := hL.perm
    rw [Finset.sum_eq_zero (fun t _ => by rw [(hend t).1]; rfl), add_zero, Multiset.coe_eq_coe] at h1
    exact h1
  have hno : ∀ t i s, ¬(ls t).cur = .pts i s ∧ ¬(ls t).cur = .batch i s ∧ ¬(ls t).cur = .idx i s := by
    intro t i s
    rw [(hend t).2]
    exact ⟨nofun, nofun, nofun⟩
  have hnone : ∀ s, L.length ≤ s → L[s]? = none := fun s hs => List.getElem?_eq_none hs
  refine ⟨hL.len.symm.trans hperm.length_eq, L, hperm, ?_, ?_⟩
  · intro s hs
    have e : L[s]? = some L[s] := List.getElem?_eq_getElem hs
    refine ⟨?_, ?_, ?_⟩
    · exact (hL.donePts s _ e).resolve_right fun ⟨t, ht⟩ => (hno t _ _).1 ht
    · exact (hL.doneBatch s _ e).resolve_right fun ⟨t, ht⟩ => ht.elim (hno t _ _).1 (hno t _ _).2.1
    · exact (hL.doneIdx s _ e).resolve_right fun ⟨t, ht⟩ => ht.elim (hno t _ _).1 (Or.rec (hno t _ _).2.1 (hno t _ _).2.2)
  · intro s hs
    have e := hnone s hs
    refine ⟨Option.eq_none_iff_forall_ne_some.2 fun x hx => ?_, Option.eq_none_iff_forall_ne_some.2 fun x hx => ?_,
      Option.eq_none_iff_forall_ne_some.2 fun x hx => ?_⟩
    · obtain ⟨i, h1, _⟩ := hL.wPts s x hx
      rw [e] at h1
      cases h1
    · obtain ⟨i, h1, _⟩ := hL.wBatch s x hx
      rw [e] at h1
      cases h1
    · have h1 := hL.wIdx s x hx
      rw [e] at h1
      cases h1

/-- **C173.** At every moment of the launch: the counter is at most the number of selected points, no thread has written or is about
to write at or beyond that number, and entries at the same position of the three arrays that have been written belong to the same selected
point. -/
theorem C173_meanwhile {sel : ℕ → ℤ} {pts : ℕ → P} {batch : ℕ → ℤ} {N T : ℕ} (hT : 0 < T) {m : PoolMem P} {ls : Fin T → PoolThread}
    (h : Steps (poolStep sel pts batch) (poolStart N T) (m, ls)) :
    m.cnt ≤ (selected sel N).length ∧
      (∀ s, (selected sel N).length ≤ s → m.pts s = none ∧ m.batch s = none ∧ m.idx s = none) ∧
      (∀ t i s, (ls t).cur = .pts i s ∨ (ls t).cur = .batch i s ∨ (ls t).cur = .idx i s → s < (selected sel N).length) ∧
      ∀ s, ∃ i, (∀ x, m.pts s = some x → x = pts i ∧ i ∈ selected sel N) ∧ (∀ x, m.batch s = some x → x = batch i ∧ i ∈ selected sel N) ∧
        ∀ x, m.idx s = some x → x = i ∧ i ∈ selected sel N := by
  obtain ⟨L, hL⟩ := poolInv_run hT h
  have hle : (L : Multiset ℕ) ≤ (selected sel N : List ℕ) := by
    have : (L : Multiset ℕ) + _ = (selected sel N : List ℕ) := hL.perm
    rw [← this]
    exact Multiset.le_add_right _ _
  have hlen : L.length ≤ (selected sel N).length := by
    have := Multiset.card_le_card hle
    simpa using this
  have hlt : ∀ s i, L[s]? = some i → s < L.length := fun s i e => (List.getElem?_eq_some_iff.1 e).1
  have hmem : ∀ s i, L[s]? = some i → i ∈ selected sel N := fun s i e => by
    have : i ∈ (L : Multiset ℕ) := Multiset.mem_coe.2 (List.mem_of_getElem? e)
    exact Multiset.mem_coe.1 (Multiset.mem_of_le hle this)
  have hcnt : L.length = m.cnt := hL.len
  refine ⟨hcnt ▸ hlen, ?_, ?_, ?_⟩
  · intro s hs
    refine ⟨Option.eq_none_iff_forall_ne_some.2 fun x hx => ?_, Option.eq_none_iff_forall_ne_some.2 fun x hx => ?_,
      Option.eq_none_iff_forall_ne_some.2 fun x hx => ?_⟩
    · obtain ⟨i, h1, _⟩ := hL.wPts s x hx
      have := hlt s i h1
      omega
    · obtain ⟨i, h1, _⟩ := hL.wBatch s x hx
      have := hlt s i h1
      omega
    · have := hlt s x (hL.wIdx s x hx)
      omega
  · intro t i s ht
    have : L[s]? = some i := by
      rcases ht with ht | ht | ht
      · exact hL.atPts t i s ht
      · exact hL.atBatch t i s ht
      · exact hL.atIdx t i s ht
    exact (hlt s i this).trans_le hlen
  · intro s
    cases e : L[s]? with
    | none =>
      refine ⟨0, fun x hx => ?_, fun x hx => ?_, fun x hx => ?_⟩
      · obtain ⟨i, h1, _⟩ := hL.wPts s x hx
        rw [e] at h1
        cases h1
      · obtain ⟨i, h1, _⟩ := hL.wBatch s x hx
        rw [e] at h1
        cases h1
      · have h1 := hL.wIdx s x hx
        rw [e] at h1
        cases h1
    | some i =>
      refine ⟨i, fun x hx => ?_, fun x hx => ?_, fun x hx => ?_⟩
      · obtain ⟨j, h1, h2⟩ := hL.wPts s x hx
        rw [e] at h1
        rw [h2, Option.some.inj h1]
        exact ⟨rfl, hmem s j (Option.some.inj h1 ▸ e)⟩
      · obtain ⟨j, h1, h2⟩ := hL.wBatch s x hx
        rw [e] at h1
        rw [h2, Option.some.inj h1]
        exact ⟨rfl, hmem s j (Option.some.inj h1 ▸ e)⟩
      · have h1 := hL.wIdx s x hx
        rw [e] at h1
        exact ⟨(Option.some.inj h1).symm, hmem s i e⟩

/-- Number of steps that a thread still has to do, at most. -/
def poolLeft (l : PoolThread) : ℕ :=
  4 * l.todo.length + (match l.cur with | .idle => 0 | .pts _ _ => 3 | .batch _ _ => 2 | .idx _ _ => 1)

theorem poolLeft_step {sel : ℕ → ℤ} {pts : ℕ → P} {batch : ℕ → ℤ} (s : PoolMem P) (l : PoolThread) (s' : PoolMem P) (l' : PoolThread)
    (h : poolStep sel pts batch s l = some (s', l')) : poolLeft l' < poolLeft l := by
  obtain ⟨todo, cur⟩ := l
  unfold poolStep at h
  unfold poolLeft
  split at h
  · cases h
  · next h1 h2 =>
    simp only at h1 h2
    subst h1 h2
    split at h
    · cases h; simp; omega
    · cases h; simp
  · next h1 => simp only at h1; subst h1; cases h; simp
  · next h1 => simp only at h1; subst h1; cases h; simp
  · next h1 => simp only at h1; subst h1; cases h; simp

/-- **C173.** Every launch can be finished from every moment. -/
theorem C173_ends (sel : ℕ → ℤ) (pts : ℕ → P) (batch : ℕ → ℤ) {T : ℕ} (c : PoolMem P × (Fin T → PoolThread)) :
    ∃ c', Steps (poolStep sel pts batch) c c' ∧ Halted (poolStep sel pts batch) c' :=
  Steps.exists_halted (T := T) (poolStep sel pts batch) poolLeft poolLeft_step c

/-- **C173.** No schedule, fair or not, runs forever. -/
theorem C173_finite (sel : ℕ → ℤ) (pts : ℕ → P) (batch : ℕ → ℤ) {T : ℕ} :
    ¬∃ c : ℕ → PoolMem P × (Fin T → PoolThread), ∀ n, ∃ t m' l', poolStep sel pts batch (c n).1 ((c n).2 t) = some (m', l') ∧
      c (n + 1) = (m', Function.update (c n).2 t l') := by
  rintro ⟨c, hc⟩
  have hdec : ∀ n, ∑ t, poolLeft ((c (n + 1)).2 t) < ∑ t, poolLeft ((c n).2 t) := by
    intro n
    obtain ⟨t, m', l', h1, h2⟩ := hc n
    have h3 := poolLeft_step _ _ _ _ h1
    rw [h2]
    refine Finset.sum_lt_sum (fun u _ => ?_) ⟨t, Finset.mem_univ t, ?_⟩
    · by_cases e : u = t
      · subst e
        show poolLeft (Function.update (c n).2 u l' u) ≤ _
        rw [Function.update_self]
        exact h3.le
      · show poolLeft (Function.update (c n).2 t l' u) ≤ _
        rw [Function.update_of_ne e]
    · show poolLeft (Function.update (c n).2 t l' t) < _
      rw [Function.update_self]
      exact h3
  have hb : ∀ n, n + ∑ t, poolLeft ((c n).2 t) ≤ ∑ t, poolLeft ((c 0).2 t) := by
    intro n
    induction n with
    | zero => omega
    | succ n ih => have := hdec n; omega
  have := hb (∑ t, poolLeft ((c 0).2 t) + 1)
  omega

/-- The position a thread is writing to. -/
def PoolCur.slot : PoolCur → Option ℕ
  | .idle => none
  | .pts _ s => some s
  | .batch _ s => some s
  | .idx _ s => some s

/-- Invariant: positions are used by one thread, and entries that are still to be written are empty. -/
structure PoolOnce {T : ℕ} (c : PoolMem P × (Fin T → PoolThread)) : Prop where
  lt : ∀ t s, (c.2 t).cur.slot = some s → s < c.1.cnt
  one : ∀ t u s, (c.2 t).cur.slot = some s → (c.2 u).cur.slot = some s → t = u
  atPts : ∀ t i s, (c.2 t).cur = .pts i s → c.1.pts s = none ∧ c.1.batch s = none ∧ c.1.idx s = none
  atBatch : ∀ t i s, (c.2 t).cur = .batch i s → c.1.batch s = none ∧ c.1.idx s = none
  atIdx : ∀ t i s, (c.2 t).cur = .idx i s → c.1.idx s = none
  free : ∀ s, c.1.cnt ≤ s → c.1.pts s = none ∧ c.1.batch s = none ∧ c.1.idx s = none

theorem poolOnce_step {sel : ℕ → ℤ} {pts : ℕ → P} {batch : ℕ → ℤ} {T : ℕ} {m : PoolMem P} {ls : Fin T → PoolThread} {t : Fin T}
    {m' : PoolMem P} {l' : PoolThread} (h : PoolOnce (m, ls)) (hs : poolStep sel pts batch m (ls t) = some (m', l')) :
    PoolOnce (m', Function.update ls t l') := by
  obtain ⟨lt, one, aP, aB, aI, free⟩ := h
  simp only at lt one aP aB aI free
  obtain ⟨todo, cur, hl⟩ : ∃ todo cur, ls t = ⟨todo, cur⟩ := ⟨_, _, rfl⟩
  rw [hl] at hs
  have hcur : (ls t).cur = cur := by rw [hl]
  have upd : ∀ u, (Function.update ls t l' u).cur = if u = t then l'.cur else (ls u).cur := by
    intro u
    by_cases e : u = t
    · subst e; rw [Function.update_self, if_pos rfl]
    · rw [Function.update_of_ne e, if_neg e]
  have slotPts : ∀ u i s, (ls u).cur = .pts i s → (ls u).cur.slot = some s := fun u i s e => by rw [e]; rfl
  have slotBatch : ∀ u i s, (ls u).cur = .batch i s → (ls u).cur.slot = some s := fun u i s e => by rw [e]; rfl
  have slotIdx : ∀ u i s, (ls u).cur = .idx i s → (ls u).cur.slot = some s := fun u i s e => by rw [e]; rfl
  have main : ∀ s0, cur.slot = some s0 → (∀ u s, (Function.update ls t l' u).cur.slot = some s → (ls u).cur.slot = some s) →
      (∀ u s, (Function.update ls t l' u).cur.slot = some s → s < m.cnt) ∧
      (∀ u v s, (Function.update ls t l' u).cur.slot = some s → (Function.update ls t l' v).cur.slot = some s → u = v) :=
    fun s0 _ hsub => ⟨fun u s e => lt u s (hsub u s e), fun u v s e1 e2 => one u v s (hsub u s e1) (hsub v s e2)⟩
  have ne : ∀ s0, cur.slot = some s0 → ∀ u s, u ≠ t → (ls u).cur.slot = some s → s ≠ s0 := by
    rintro s0 h0 u s hu e rfl
    exact hu (one u t s e (by rw [hcur]; exact h0))
  cases cur with
  | idle =>
    cases todo with
    | nil => cases hs
    | cons i rest =>
      have hs : (if sel i = 1 then some ({ m with cnt := m.cnt + 1 }, ⟨rest, .pts i m.cnt⟩) else some (m, ⟨rest, .idle⟩)) = some (m', l') := hs
      by_cases hi : sel i = 1
      · rw [if_pos hi] at hs
        obtain ⟨rfl, rfl⟩ := Prod.mk.inj (Option.some.inj hs)
        refine ⟨?_, ?_, ?_, ?_, ?_, fun s hs => free s (by simp only at hs; omega)⟩
        · intro u s e
          simp only [upd] at e
          show s < m.cnt + 1
          split at e
          · have : m.cnt = s := Option.some.inj e
            omega
          · have := lt u s e
            omega
        · intro u v s e1 e2
          simp only [upd] at e1 e2
          split at e1
          · next hu =>
            have h1 : m.cnt = s := Option.some.inj e1
            split at e2
            · next hv => rw [hu, hv]
            · have := lt v s e2
              omega
          · split at e2
            · have h1 : m.cnt = s := Option.some.inj e2
              have := lt u s e1
              omega
            · exact one u v s e1 e2
        · intro u j s e
          simp only [upd] at e
          split at e
          · obtain ⟨rfl, rfl⟩ := PoolCur.pts.inj e
            exact free _ le_rfl
          · exact aP u j s e
        · intro u j s e
          simp only [upd] at e
          split at e
          · cases e
          · exact aB u j s e
        · intro u j s e
          simp only [upd] at e
          split at e
          · cases e
          · exact aI u j s e
      · rw [if_neg hi] at hs
        obtain ⟨rfl, rfl⟩ := Prod.mk.inj (Option.some.inj hs)
        have hc : ∀ u, (Function.update ls t ⟨rest, .idle⟩ u).cur = (ls u).cur := by
          intro u
          rw [upd]
          split
          · next e => rw [e, hcur]
          · rfl
        exact ⟨fun u s e => lt u s (by rw [← hc]; exact e), fun u v s e1 e2 => one u v s (by rw [← hc]; exact e1) (by rw [← hc]; exact e2),
          fun u j s e => aP u j s ((hc u).symm.trans e), fun u j s e => aB u j s ((hc u).symm.trans e),
          fun u j s e => aI u j s ((hc u).symm.trans e), free⟩
  | pts i s0 =>
    obtain ⟨rfl, rfl⟩ := Prod.mk.inj (Option.some.inj hs)
    obtain ⟨m1, m2⟩ := main s0 rfl (by
      intro u s e
      rw [upd] at e
      split at e
      · next hu => rw [hu, hcur]; exact e
      · exact e)
    obtain ⟨_, n2, n3⟩ := aP t i s0 hcur
    refine ⟨m1, m2, ?_, ?_, ?_, ?_⟩
    · intro u j s e
      simp only [upd] at e
      split at e
      · cases e
      · next hu =>
        have := ne s0 rfl u s hu (slotPts u j s e)
        refine ⟨(Function.update_of_ne this _ _).trans (aP u j s e).1, (aP u j s e).2⟩
    · intro u j s e
      simp only [upd] at e
      split at e
      · obtain ⟨rfl, rfl⟩ := PoolCur.batch.inj e
        exact ⟨n2, n3⟩
      · exact aB u j s e
    · intro u j s e
      simp only [upd] at e
      split at e
      · cases e
      · exact aI u j s e
    · intro s hs
      have h0 := lt t s0 (slotPts t i s0 hcur)
      simp only at hs
      exact ⟨(Function.update_of_ne (by omega) _ _).trans (free s hs).1, (free s hs).2⟩
  | batch i s0 =>
    obtain ⟨rfl, rfl⟩ := Prod.mk.inj (Option.some.inj hs)
    obtain ⟨m1, m2⟩ := main s0 rfl (by
      intro u s e
      rw [upd] at e
      split at e
      · next hu => rw [hu, hcur]; exact e
      · exact e)
    obtain ⟨_, n3⟩ := aB t i s0 hcur
    refine ⟨m1, m2, ?_, ?_, ?_, ?_⟩
    · intro u j s e
      simp only [upd] at e
      split at e
      · cases e
      · next hu =>
        have := ne s0 rfl u s hu (slotPts u j s e)
        exact ⟨(aP u j s e).1, (Function.update_of_ne this _ _).trans (aP u j s e).2.1, (aP u j s e).2.2⟩
    · intro u j s e
      simp only [upd] at e
      split at e
      · cases e
      · next hu =>
        have := ne s0 rfl u s hu (slotBatch u j s e)
        exact ⟨(Function.update_of_ne this _ _).trans (aB u j s e).1, (aB u j s e).2⟩
    · intro u j s e
      simp only [upd] at e
      split at e
      · obtain ⟨rfl, rfl⟩ := PoolCur.idx.inj e
        exact n3
      · exact aI u j s e
    · intro s hs
      have h0 := lt t s0 (slotBatch t i s0 hcur)
      simp only at hs
      exact ⟨(free s hs).1, (Function.update_of_ne (by omega) _ _).trans (free s hs).2.1, (free s hs).2.2⟩
  | idx i s0 =>
    obtain ⟨rfl, rfl⟩ := Prod.mk.inj (Option.some.inj hs)
    obtain ⟨m1, m2⟩ := main s0 rfl (by
      intro u s e
      rw [upd] at e
      split at e
      · cases e
      · exact e)
    refine ⟨m1, m2, ?_, ?_, ?_, ?_⟩
    · intro u j s e
      simp only [upd] at e
      split at e
      · cases e
      · next hu =>
        have := ne s0 rfl u s hu (slotPts u j s e)
        exact ⟨(aP u j s e).1, (aP u j s e).2.1, (Function.update_of_ne this _ _).trans (aP u j s e).2.2⟩
    · intro u j s e
      simp only [upd] at e
      split at e
      · cases e
      · next hu =>
        have := ne s0 rfl u s hu (slotBatch u j s e)
        exact ⟨(aB u j s e).1, (Function.update_of_ne this _ _).trans (aB u j s e).2⟩
    · intro u j s e
      simp only [upd] at e
      split at e
      · cases e
      · next hu =>
        have := ne s0 rfl u s hu (slotIdx u j s e)
        exact (Function.update_of_ne this _ _).trans (aI u j s e)
    · intro s hs
      have h0 := lt t s0 (slotIdx t i s0 hcur)
      simp only at hs
      exact ⟨(free s hs).1, (free s hs).2.1, (Function.update_of_ne (by omega) _ _).trans (free s hs).2.2⟩

/-- **C173.** No entry of the output is written twice, and no two threads are ever at the same position, so the writes of a launch do
not race: whenever a thread is about to write an entry, it is still unwritten and no other thread is going to write at its position. -/
theorem C173_once {sel : ℕ → ℤ} {pts : ℕ → P} {batch : ℕ → ℤ} {N T : ℕ} {m : PoolMem P} {ls : Fin T → PoolThread}
    (h : Steps (poolStep sel pts batch) (poolStart N T) (m, ls)) :
    (∀ t i s, (ls t).cur = .pts i s → m.pts s = none) ∧ (∀ t i s, (ls t).cur = .batch i s → m.batch s = none) ∧
      (∀ t i s, (ls t).cur = .idx i s → m.idx s = none) ∧
      ∀ t u i j s, t ≠ u → (ls t).cur = .pts i s ∨ (ls t).cur = .batch i s ∨ (ls t).cur = .idx i s →
        ¬((ls u).cur = .pts j s ∨ (ls u).cur = .batch j s ∨ (ls u).cur = .idx j s) := by
  have hI : PoolOnce (m, ls) := h.invariant PoolOnce (by constructor <;> intros <;> simp_all [poolStart, PoolCur.slot])
    (fun _ _ _ _ _ hc hs => poolOnce_step hc hs)
  refine ⟨fun t i s e => (hI.atPts t i s e).1, fun t i s e => (hI.atBatch t i s e).1, hI.atIdx, ?_⟩
  intro t u i j s hne ht hu
  have hslot : ∀ c : PoolCur, ∀ i, c = .pts i s ∨ c = .batch i s ∨ c = .idx i s → c.slot = some s := by
    rintro c i (rfl | rfl | rfl) <;> rfl
  exact hne (hI.one t u s (hslot _ i ht) (hslot _ j hu))

/-- Two threads, four points of which the points 0, 1 and 3 are selected: a finished launch exists, and copies three points. -/
example : ∃ c : PoolMem ℕ × (Fin 2 → PoolThread), Steps (poolStep (fun i => if i = 2 then 0 else 1) (fun i => 10 * i) (fun i => i)) (poolStart 4 2) c ∧
    Halted (poolStep (fun i => if i = 2 then 0 else 1) (fun i => 10 * i) (fun i => i)) c ∧ c.1.cnt = 3 := by
  obtain ⟨⟨m, ls⟩, h1, h2⟩ := C173_ends (fun i => if i = 2 then 0 else 1) (fun i => 10 * i) (fun i => (i : ℤ)) (poolStart (P := ℕ) 4 2)
  exact ⟨_, h1, h2, (C173_copies (by decide) h1 h2).1.trans (by decide)⟩

end PC
