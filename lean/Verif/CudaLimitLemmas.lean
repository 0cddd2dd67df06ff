import Verif.CudaLimit
import Verif.CudaCountLemmas

/-!
# Lemmas about storing with a neighbour limit
-/

set_option linter.unusedVariables false
set_option linter.unusedSimpArgs false

namespace PC

/-- The pairs a thread has not looked at yet. -/
def LimThread.todoM (l : LimThread) : Multiset (ℕ × ℕ) := (l.todo.map LimItem.pair : List (ℕ × ℕ))

/-- The pair whose counter increment is outstanding. -/
def LimPend.incM : LimPend → Multiset (ℕ × ℕ)
  | .inc x => {x.pair}
  | _ => 0

/-- The pair whose counter read is outstanding. -/
def LimPend.lookM : LimPend → Multiset (ℕ × ℕ)
  | .look x => {x.pair}
  | _ => 0

/-- The outstanding write. -/
def LimPend.writeM : LimPend → Multiset (ℤ × (ℕ × ℕ))
  | .write a x => {(a, x.pair)}
  | _ => 0

section
variable (x : LimItem) (a : ℤ)
theorem LimPend.incM_none : LimPend.none.incM = 0 := rfl
theorem LimPend.incM_inc : (LimPend.inc x).incM = {x.pair} := rfl
theorem LimPend.incM_look : (LimPend.look x).incM = 0 := rfl
theorem LimPend.incM_write : (LimPend.write a x).incM = 0 := rfl
theorem LimPend.lookM_none : LimPend.none.lookM = 0 := rfl
theorem LimPend.lookM_inc : (LimPend.inc x).lookM = 0 := rfl
theorem LimPend.lookM_look : (LimPend.look x).lookM = {x.pair} := rfl
theorem LimPend.lookM_write : (LimPend.write a x).lookM = 0 := rfl
theorem LimPend.writeM_none : LimPend.none.writeM = 0 := rfl
theorem LimPend.writeM_inc : (LimPend.inc x).writeM = 0 := rfl
theorem LimPend.writeM_look : (LimPend.look x).writeM = 0 := rfl
theorem LimPend.writeM_write : (LimPend.write a x).writeM = {(a, x.pair)} := rfl
end

/-- Slots of the first arrivals, with signed addresses. -/
def assignZ (start : ℕ → ℕ) (al : List (ℕ × ℕ)) : Multiset (ℤ × (ℕ × ℕ)) :=
  ((assignSlots start al).map (fun w => ((w.1 : ℤ), w.2)) : List (ℤ × (ℕ × ℕ)))

theorem assignZ_cons (start : ℕ → ℕ) (x : ℕ × ℕ) (al : List (ℕ × ℕ)) :
    assignZ start (x :: al) =
      {(((start x.2 + al.countP (fun y => y.2 = x.2) : ℕ) : ℤ), x)} + assignZ start al := by
  unfold assignZ
  rw [assignSlots, List.map_cons, ← Multiset.cons_coe, Multiset.singleton_add]

/-- The invariant of a launch that starts with the writes `W0` and reads `R0` and the
counters `start`;
`al`: first arrivals whose counter has been incremented (latest first), `rp`:
replacing writes, performed or outstanding, `rj`: dropped pairs, `total`: all
pairs. -/
structure LimInv (m : ℕ) (ok : LimItem → Prop) (start : ℕ → ℕ)
    (W0 : List (ℤ × (ℕ × ℕ))) (R0 : List (ℕ × ℕ)) {T : ℕ} (total : Multiset (ℕ × ℕ)) (al : List (ℕ × ℕ)) (rp : Multiset (ℤ × (ℕ × ℕ))) (rj : Multiset (ℕ × ℕ))
    (c : LimMem × (Fin T → LimThread)) : Prop where
  cnt : ∀ s, c.1.cnt s = start s + al.countP (fun y => y.2 = s)
  lim : ∀ s, al.countP (fun y => y.2 = s) + (∑ t, (c.2 t).pend.incM).countP (fun y => y.2 = s) =
    min m (c.1.aux s)
  writes : (c.1.writes : Multiset _) + ∑ t, (c.2 t).pend.writeM = (W0 : Multiset (ℤ × (ℕ × ℕ))) + assignZ start al + rp
  repl : ∀ w ∈ rp, ∃ v x, (w.2.2, v) ∈ c.1.reads ∧ ok x ∧ w = ((v : ℤ) - x.back, x.pair)
  pairs : (al : Multiset (ℕ × ℕ)) + ∑ t, (c.2 t).pend.incM + ∑ t, (c.2 t).pend.lookM +
    rp.map Prod.snd + ∑ t, (c.2 t).todoM + rj = total
  aux : ∀ s, c.1.aux s + (∑ t, (c.2 t).todoM).countP (fun y => y.2 = s) =
    total.countP (fun y => y.2 = s)
  oks : ∀ t, ∀ x ∈ (c.2 t).todo, ok x
  mono : ∀ r ∈ R0, r ∈ c.1.reads
  okl : ∀ t x, (c.2 t).pend = .look x → ok x

theorem limInv_step {m : ℕ} {ok : LimItem → Prop} {start : ℕ → ℕ}
    {W0 : List (ℤ × (ℕ × ℕ))} {R0 : List (ℕ × ℕ)} {T : ℕ} {total : Multiset (ℕ × ℕ)} (s : LimMem) (ls : Fin T → LimThread) (t : Fin T) (s' : LimMem) (l' : LimThread)
    (h : ∃ al rp rj, LimInv m ok start W0 R0 total al rp rj (s, ls)) (hst : limStep m s (ls t) = some (s', l')) :
    ∃ al rp rj, LimInv m ok start W0 R0 total al rp rj (s', Function.update ls t l') := by
  obtain ⟨al, rp, rj, i1, i2, i3, i4, i5, i6, i7, i9, i8⟩ := h
  simp only at i1 i2 i3 i4 i5 i6 i7 i8 i9
  have uI := sum_upd (fun l : LimThread => l.pend.incM) ls t l'
  have uL := sum_upd (fun l : LimThread => l.pend.lookM) ls t l'
  have uW := sum_upd (fun l : LimThread => l.pend.writeM) ls t l'
  have uT := sum_upd LimThread.todoM ls t l'
  -- the todo lists only shrink
  have hok : (∀ x ∈ l'.todo, x ∈ (ls t).todo) → ∀ u, ∀ x ∈ (Function.update ls t l' u).todo, ok x := by
    intro hsub u x hx
    by_cases e : u = t
    · subst e; rw [Function.update_self] at hx; exact i7 u x (hsub x hx)
    · rw [Function.update_of_ne e] at hx; exact i7 u x hx
  have hokl : (∀ x, l'.pend = .look x → ok x) → ∀ u x, (Function.update ls t l' u).pend = .look x → ok x := by
    intro hsub u x hx
    by_cases e : u = t
    · subst e; rw [Function.update_self] at hx; exact hsub x hx
    · rw [Function.update_of_ne e] at hx; exact i8 u x hx
  unfold limStep at hst
  split at hst
  · -- write
    next a x hp =>
    cases hst
    simp only [hp, LimPend.incM_none, LimPend.incM_inc, LimPend.incM_look, LimPend.incM_write, LimPend.lookM_none, LimPend.lookM_inc, LimPend.lookM_look, LimPend.lookM_write, LimPend.writeM_none, LimPend.writeM_inc, LimPend.writeM_look, LimPend.writeM_write, add_zero] at uI uL uW
    have uT' : ∑ y, (Function.update ls t ⟨(ls t).todo, .none⟩ y).todoM = ∑ y, (ls y).todoM :=
      add_right_cancel uT
    refine ⟨al, rp, rj, i1, ?_, ?_, i4, ?_, ?_, hok (fun _ h => h), i9, hokl (by intro x h; cases h)⟩
    · intro q; simp only [uI]; exact i2 q
    · rw [← i3, ← uW, ← Multiset.coe_add]
      show (↑s.writes + ({(a, x.pair)} : Multiset _)) + _ = _
      rw [add_assoc, add_comm ({(a, x.pair)} : Multiset _)]
    · simp only [uI, uL, uT']; exact i5
    · intro q; simp only [uT']; exact i6 q
  · -- increment
    next x hp =>
    cases hst
    simp only [hp, LimPend.incM_none, LimPend.incM_inc, LimPend.incM_look, LimPend.incM_write, LimPend.lookM_none, LimPend.lookM_inc, LimPend.lookM_look, LimPend.lookM_write, LimPend.writeM_none, LimPend.writeM_inc, LimPend.writeM_look, LimPend.writeM_write, add_zero] at uI uL uW
    have uT' : ∑ y, (Function.update ls t ⟨(ls t).todo, .write (s.cnt x.sample) x⟩ y).todoM =
      ∑ y, (ls y).todoM := add_right_cancel uT
    refine ⟨x.pair :: al, rp, rj, ?_, ?_, ?_, i4, ?_, ?_, hok (fun _ h => h), i9, hokl (by intro x h; cases h)⟩
    · intro q
      simp only [List.countP_cons]
      by_cases hq : q = x.sample
      · subst hq
        rw [Function.update_self, i1]; simp [LimItem.pair]; ring
      · rw [Function.update_of_ne hq, i1, if_neg]
        · rfl
        · exact fun e => hq (of_decide_eq_true e).symm
    · intro q
      have h1 := congrArg (Multiset.countP (fun y => y.2 = q)) uI
      rw [Multiset.countP_add] at h1
      have h2 := i2 q
      have h3 : Multiset.countP (fun y : ℕ × ℕ => y.2 = q) {x.pair} = if x.pair.2 = q then 1 else 0 := by
        by_cases e : x.pair.2 = q
        · rw [if_pos e, Multiset.countP_eq_card.mpr (by simpa using e)]; rfl
        · rw [if_neg e, Multiset.countP_eq_zero.mpr (by simpa using e)]
      simp only [List.countP_cons, decide_eq_true_eq] at h1 ⊢
      rw [h3] at h1
      omega
    · simp only [uW, assignZ_cons]
      rw [← add_assoc, i3]
      have : start x.pair.2 + al.countP (fun y => y.2 = x.pair.2) = s.cnt x.sample := (i1 x.sample).symm
      rw [this]
      generalize ({((s.cnt x.sample : ℤ), x.pair)} : Multiset (ℤ × (ℕ × ℕ))) = z
      generalize assignZ start al = y
      generalize (W0 : Multiset (ℤ × (ℕ × ℕ))) = w
      ext a
      simp only [Multiset.count_add]
      omega
    · rw [← i5, ← uI]
      simp only [uL, uT']
      rw [← Multiset.cons_coe, ← Multiset.singleton_add]
      generalize ({x.pair} : Multiset (ℕ × ℕ)) = z
      ext a
      simp only [Multiset.count_add]
      omega
    · intro q; simp only [uT']; exact i6 q
  · -- look
    next x hp =>
    cases hst
    simp only [hp, LimPend.incM_none, LimPend.incM_inc, LimPend.incM_look, LimPend.incM_write, LimPend.lookM_none, LimPend.lookM_inc, LimPend.lookM_look, LimPend.lookM_write, LimPend.writeM_none, LimPend.writeM_inc, LimPend.writeM_look, LimPend.writeM_write, add_zero] at uI uL uW
    have uT' : ∑ y, (Function.update ls t ⟨(ls t).todo, .write ((s.cnt x.sample : ℤ) - x.back) x⟩ y).todoM =
      ∑ y, (ls y).todoM := add_right_cancel uT
    refine ⟨al, {((s.cnt x.sample : ℤ) - x.back, x.pair)} + rp, rj, i1, ?_, ?_, ?_, ?_, ?_,
      hok (fun _ h => h), (fun r h => List.mem_append.mpr (Or.inl (i9 r h))), hokl (by intro x h; cases h)⟩
    · intro q; simp only [uI]; exact i2 q
    · simp only [uW]
      rw [← add_assoc, i3]
      generalize ({((s.cnt x.sample : ℤ) - x.back, x.pair)} : Multiset (ℤ × (ℕ × ℕ))) = z
      rw [add_assoc, add_comm rp z]
    · intro w hw
      rw [Multiset.mem_add, Multiset.mem_singleton] at hw
      rcases hw with rfl | hw
      · exact ⟨s.cnt x.sample, x, List.mem_append.mpr (Or.inr (List.mem_singleton.mpr rfl)), i8 t x hp, rfl⟩
      · obtain ⟨v, y, h1, h2, h3⟩ := i4 w hw
        exact ⟨v, y, List.mem_append.mpr (Or.inl h1), h2, h3⟩
    · rw [← i5, ← uL]
      simp only [uI, uT', Multiset.map_add, Multiset.map_singleton]
      generalize ({x.pair} : Multiset (ℕ × ℕ)) = z
      ext a
      simp only [Multiset.count_add]
      omega
    · intro q; simp only [uT']; exact i6 q
  · -- next pair
    next hp =>
    split at hst
    · next x td ht =>
      cases hst
      have hx : ok x := i7 t x (by rw [ht]; exact List.mem_cons_self)
      have e1 : (ls t).todoM = {x.pair} + (td.map LimItem.pair : List (ℕ × ℕ)) := by
        unfold LimThread.todoM
        rw [ht, List.map_cons, ← Multiset.cons_coe, Multiset.singleton_add]
      have hxa : ∀ q, Multiset.countP (fun y : ℕ × ℕ => y.2 = q) {x.pair} = if x.sample = q then 1 else 0 := by
        intro q
        by_cases e : x.sample = q
        · rw [if_pos e, Multiset.countP_eq_card.mpr (by simpa [LimItem.pair] using e)]; rfl
        · rw [if_neg e, Multiset.countP_eq_zero.mpr (by simpa [LimItem.pair] using e)]
      simp only [hp, e1, LimPend.incM_none, LimPend.incM_inc, LimPend.incM_look, LimPend.incM_write, LimPend.lookM_none, LimPend.lookM_inc, LimPend.lookM_look, LimPend.lookM_write, LimPend.writeM_none, LimPend.writeM_inc, LimPend.writeM_look, LimPend.writeM_write, add_zero] at uI uL uW uT
      have uT' : ∑ y, (Function.update ls t
          ⟨td, if s.aux x.sample < m then .inc x else if x.accept then .look x else .none⟩ y).todoM +
          {x.pair} = ∑ y, (ls y).todoM := by
        apply add_right_cancel (b := ((td.map LimItem.pair : List (ℕ × ℕ)) : Multiset (ℕ × ℕ)))
        rw [add_assoc]; exact uT
      have haux : ∀ q, Function.update s.aux x.sample (s.aux x.sample + 1) q =
          s.aux q + if x.sample = q then 1 else 0 := by
        intro q
        by_cases e : x.sample = q
        · subst e; rw [Function.update_self, if_pos rfl]
        · rw [Function.update_of_ne (fun h => e h.symm), if_neg e]; rfl
      have h6 : ∀ q, Function.update s.aux x.sample (s.aux x.sample + 1) q +
          (∑ y, (Function.update ls t
          ⟨td, if s.aux x.sample < m then .inc x else if x.accept then .look x else .none⟩ y).todoM).countP
            (fun y => y.2 = q) = total.countP (fun y => y.2 = q) := by
        intro q
        have h1 := congrArg (Multiset.countP (fun y => y.2 = q)) uT'
        rw [Multiset.countP_add, hxa] at h1
        rw [haux, ← i6 q]
        omega
      by_cases hm : s.aux x.sample < m
      · simp only [if_pos hm, LimPend.incM_none, LimPend.incM_inc, LimPend.incM_look, LimPend.incM_write, LimPend.lookM_none, LimPend.lookM_inc, LimPend.lookM_look, LimPend.lookM_write, LimPend.writeM_none, LimPend.writeM_inc, LimPend.writeM_look, LimPend.writeM_write, add_zero] at *
        refine ⟨al, rp, rj, i1, ?_, ?_, i4, ?_, h6, hok ?_, i9, hokl (by intro y h; cases h)⟩
        · intro q
          simp only [uI, Multiset.countP_add, hxa, haux]
          have := i2 q
          by_cases e : x.sample = q
          · subst e; rw [if_pos rfl]; omega
          · rw [if_neg e]; simpa using this
        · simp only [uW]; exact i3
        · rw [← i5, ← uT']
          simp only [uI, uL]
          generalize ({x.pair} : Multiset (ℕ × ℕ)) = z
          ext a
          simp only [Multiset.count_add]
          omega
        · intro y hy; rw [ht]; exact List.mem_cons_of_mem _ hy
      · have h2 : ∀ q, al.countP (fun y => y.2 = q) + (∑ t, (ls t).pend.incM).countP (fun y => y.2 = q) =
            min m (Function.update s.aux x.sample (s.aux x.sample + 1) q) := by
          intro q
          rw [i2 q, haux]
          by_cases e : x.sample = q
          · subst e; rw [if_pos rfl]; omega
          · rw [if_neg e, Nat.add_zero]
        by_cases ha : x.accept = true
        · simp only [if_neg hm, if_pos ha, LimPend.incM_none, LimPend.incM_inc, LimPend.incM_look, LimPend.incM_write, LimPend.lookM_none, LimPend.lookM_inc, LimPend.lookM_look, LimPend.lookM_write, LimPend.writeM_none, LimPend.writeM_inc, LimPend.writeM_look, LimPend.writeM_write, add_zero] at *
          refine ⟨al, rp, rj, i1, ?_, ?_, i4, ?_, h6, hok ?_, i9, hokl (by intro y h; cases h; exact hx)⟩
          · intro q; simp only [uI]; exact h2 q
          · simp only [uW]; exact i3
          · rw [← i5, ← uT']
            simp only [uI, uL]
            generalize ({x.pair} : Multiset (ℕ × ℕ)) = z
            ext a
            simp only [Multiset.count_add]
            omega
          · intro y hy; rw [ht]; exact List.mem_cons_of_mem _ hy
        · simp only [if_neg hm, if_neg ha, LimPend.incM_none, LimPend.incM_inc, LimPend.incM_look, LimPend.incM_write, LimPend.lookM_none, LimPend.lookM_inc, LimPend.lookM_look, LimPend.lookM_write, LimPend.writeM_none, LimPend.writeM_inc, LimPend.writeM_look, LimPend.writeM_write, add_zero] at *
          refine ⟨al, rp, {x.pair} + rj, i1, ?_, ?_, i4, ?_, h6, hok ?_, i9, hokl (by intro y h; cases h)⟩
          · intro q; simp only [uI]; exact h2 q
          · simp only [uW]; exact i3
          · rw [← i5, ← uT']
            simp only [uI, uL]
            generalize ({x.pair} : Multiset (ℕ × ℕ)) = z
            ext a
            simp only [Multiset.count_add]
            omega
          · intro y hy; rw [ht]; exact List.mem_cons_of_mem _ hy
    · cases hst

/-- What a launch (or several) leaves behind, `num s` being the number of slots
given out for sample `s`. -/
structure LimDone (ok : LimItem → Prop) (start : ℕ → ℕ) (num : ℕ → ℕ)
    (W0 : List (ℤ × (ℕ × ℕ))) (total : Multiset (ℕ × ℕ))
    (al : List (ℕ × ℕ)) (rp : Multiset (ℤ × (ℕ × ℕ))) (mem : LimMem) : Prop where
  cnt : ∀ s, mem.cnt s = start s + al.countP (fun y => y.2 = s)
  lim : ∀ s, al.countP (fun y => y.2 = s) = num s
  writes : (mem.writes : Multiset (ℤ × (ℕ × ℕ))) = (W0 : Multiset (ℤ × (ℕ × ℕ))) + assignZ start al + rp
  repl : ∀ w ∈ rp, ∃ v x, (w.2.2, v) ∈ mem.reads ∧ ok x ∧ w = ((v : ℤ) - x.back, x.pair)
  pairs : (al : Multiset (ℕ × ℕ)) + rp.map Prod.snd ≤ total

theorem limThreads_spec {m : ℕ} {ok : LimItem → Prop} {T : ℕ} (mem : LimMem)
    (prog : Fin T → List LimItem) (hok : ∀ t, ∀ x ∈ prog t, ok x) (mem' : LimMem) (ls : Fin T → LimThread)
    (hs : Steps (limStep m) ({ mem with aux := fun _ => 0 }, fun t => ⟨prog t, .none⟩) (mem', ls))
    (hh : Halted (limStep m) (mem', ls)) (total : Multiset (ℕ × ℕ))
    (htot : ∑ t, (((prog t).map LimItem.pair : List (ℕ × ℕ)) : Multiset (ℕ × ℕ)) = total) :
    (∃ al rp, LimDone ok mem.cnt (fun s => min m (total.countP (fun y => y.2 = s))) mem.writes total
      al rp mem') ∧ ∀ r ∈ mem.reads, r ∈ mem'.reads := by
  have hI := hs.invariant (fun c => ∃ al rp rj, LimInv m ok mem.cnt mem.writes mem.reads
    total al rp rj c) (by
      refine ⟨[], 0, 0, ?_, ?_, ?_, ?_, ?_, ?_, hok, fun r h => h, ?_⟩
      · intro s; rfl
      · intro s; simp [LimPend.incM]
      · simp [LimPend.writeM, assignZ, assignSlots]
      · intro w hw; simp at hw
      · rw [← htot]; simp [LimPend.incM, LimPend.lookM, LimThread.todoM]
      · intro s; rw [← htot]; simp [LimThread.todoM]
      · intro t x h; cases h) (fun s ls t s' l' h h' => limInv_step s ls t s' l' h h')
  obtain ⟨al, rp, rj, i1, i2, i3, i4, i5, i6, _, i9, _⟩ := hI
  simp only at i1 i2 i3 i4 i5 i6
  have hl : ∀ t, (ls t).pend = .none ∧ (ls t).todo = [] := by
    intro t
    have := hh t
    simp only [limStep] at this
    split at this
    · cases this
    · cases this
    · cases this
    · next h1 =>
      split at this
      · cases this
      · next h2 => exact ⟨h1, h2⟩
  have e1 : ∑ t, (ls t).pend.incM = 0 := Finset.sum_eq_zero (fun t _ => by rw [(hl t).1]; rfl)
  have e2 : ∑ t, (ls t).pend.writeM = 0 := Finset.sum_eq_zero (fun t _ => by rw [(hl t).1]; rfl)
  have e3 : ∑ t, (ls t).pend.lookM = 0 := Finset.sum_eq_zero (fun t _ => by rw [(hl t).1]; rfl)
  have e4 : ∑ t, (ls t).todoM = 0 := Finset.sum_eq_zero (fun t _ => by
    unfold LimThread.todoM; rw [(hl t).2]; rfl)
  rw [e2, add_zero] at i3
  rw [e1, e3, e4] at i5
  simp only [add_zero] at i5
  refine ⟨⟨al, rp, i1, ?_, i3, i4, ?_⟩, i9⟩
  · intro s
    have h1 := i2 s
    have h2 := i6 s
    rw [e1] at h1
    rw [e4] at h2
    simp only [Multiset.countP_zero, Nat.add_zero] at h1 h2
    rw [h1, h2]
  · rw [← i5]; exact Multiset.le_add_right _ _

/-- The pairs of all threads, sample after sample. -/
theorem prog_total {S R T : ℕ} (hT : 0 < T) (rg : ℕ → ℕ × ℕ) (hit : ℕ → ℕ → Bool)
    (prog : Fin T → List LimItem) (hp : ∀ t, (prog t).map LimItem.pair = storeProg S R T rg hit t) :
    ∑ t, (((prog t).map LimItem.pair : List (ℕ × ℕ)) : Multiset (ℕ × ℕ)) =
      ((List.range S).flatMap (fun s => (passFinds R rg hit s).map (fun p => (p, s))) : List (ℕ × ℕ)) := by
  rw [Finset.sum_congr rfl (fun t _ => by rw [hp t])]
  rw [sum_coe_flatten (fun t => storeProg S R T rg hit t), Multiset.coe_eq_coe]
  refine List.Perm.trans ?_ (iterPairs_perm S R rg hit)
  exact (Interleave.exists_seq _).perm.symm.trans
    (strideThreads_perm hT (iterPairs R rg hit) (Interleave.exists_seq _))

/-- All pairs of one pass. -/
def passPairs (S R : ℕ) (hit : ℕ → ℕ → Bool) (rg : ℕ → ℕ × ℕ) : List (ℕ × ℕ) :=
  (List.range S).flatMap (fun s => (passFinds R rg hit s).map (fun p => (p, s)))

theorem limKernel_spec {m : ℕ} {ok : LimItem → Prop} {S R T : ℕ} (hT : 0 < T) (rg : ℕ → ℕ × ℕ)
    (hit : ℕ → ℕ → Bool) (mem mem' : LimMem) (h : LimKernel m ok S R T rg hit mem mem') :
    (∃ al rp, LimDone ok mem.cnt (fun s => if s < S then min m (passFinds R rg hit s).length else 0)
      mem.writes (passPairs S R hit rg : Multiset (ℕ × ℕ)) al rp mem') ∧
      ∀ r ∈ mem.reads, r ∈ mem'.reads := by
  obtain ⟨prog, ls, h1, h2, h3, h4⟩ := h
  have := limThreads_spec mem prog h2 mem' ls h3 h4 _ (prog_total hT rg hit prog h1)
  have e : (fun s => if s < S then min m (passFinds R rg hit s).length else 0) =
      fun s => min m (Multiset.countP (fun y : ℕ × ℕ => y.2 = s) (passPairs S R hit rg)) := by
    funext s
    rw [Multiset.coe_countP, passPairs, pairs_count]
    split
    · rfl
    · rw [Nat.min_zero]
  rw [e]; exact this

theorem assignSlots_append (start : ℕ → ℕ) (al al' : List (ℕ × ℕ)) :
    assignSlots start (al' ++ al) =
      assignSlots (fun s => start s + al.countP (fun y => y.2 = s)) al' ++ assignSlots start al := by
  induction al' with
  | nil => rfl
  | cons x al' ih =>
    rw [List.cons_append, assignSlots, assignSlots, List.cons_append, ih, List.countP_append]
    congr 2
    omega

theorem assignZ_append (start : ℕ → ℕ) (al al' : List (ℕ × ℕ)) :
    assignZ start (al' ++ al) =
      assignZ (fun s => start s + al.countP (fun y => y.2 = s)) al' + assignZ start al := by
  unfold assignZ
  rw [assignSlots_append, List.map_append, Multiset.coe_add]

theorem limPasses_spec {m : ℕ} {ok : LimItem → Prop} {S R T : ℕ} (hT : 0 < T)
    (hit : ℕ → ℕ → Bool) (rgs : List (ℕ → ℕ × ℕ)) (mem mem' : LimMem)
    (h : LimPasses m ok S R T hit rgs mem mem') :
    (∃ al rp, LimDone ok mem.cnt (fun s => if s < S then (rgs.map (fun rg =>
        min m (passFinds R rg hit s).length)).sum else 0)
      mem.writes (rgs.flatMap (passPairs S R hit) : List (ℕ × ℕ)) al rp mem') ∧
      ∀ r ∈ mem.reads, r ∈ mem'.reads := by
  induction h with
  | nil mem =>
    refine ⟨⟨[], 0, fun s => rfl, fun s => ?_, ?_, ?_, ?_⟩, fun r h => h⟩
    · simp
    · simp [assignZ, assignSlots]
    · intro w hw; simp at hw
    · simp
  | cons h1 next ih =>
    obtain ⟨⟨al, rp, a1, a2, a3, a4, a5⟩, a6⟩ := limKernel_spec hT _ hit _ _ h1
    obtain ⟨⟨al', rp', b1, b2, b3, b4, b5⟩, b6⟩ := ih
    refine ⟨⟨al' ++ al, rp + rp', ?_, ?_, ?_, ?_, ?_⟩, fun r h => b6 r (a6 r h)⟩
    · intro s
      rw [b1, a1, List.countP_append]; omega
    · intro s
      rw [List.countP_append, a2, b2, List.map_cons, List.sum_cons]
      by_cases hs : s < S
      · rw [if_pos hs, if_pos hs, if_pos hs]; omega
      · rw [if_neg hs, if_neg hs, if_neg hs]
    · rw [b3, a3, assignZ_append]
      have : (fun s => _ + List.countP (fun y => decide (y.2 = s)) al) = _ := (funext a1).symm
      rw [this]
      ext a
      simp only [Multiset.count_add]
      omega
    · intro w hw
      rcases Multiset.mem_add.mp hw with hw | hw
      · obtain ⟨v, x, c1, c2, c3⟩ := a4 w hw
        exact ⟨v, x, b6 _ c1, c2, c3⟩
      · exact b4 w hw
    · rw [List.flatMap_cons, ← Multiset.coe_add, ← Multiset.coe_add, Multiset.map_add]
      refine le_trans (le_of_eq ?_) (add_le_add a5 b5)
      ext a
      simp only [Multiset.count_add]
      omega

/-- Counters only grow: what was read is at most the counter now. -/
theorem limPasses_reads {m : ℕ} {ok : LimItem → Prop} {S R T : ℕ} (hit : ℕ → ℕ → Bool)
    (rgs : List (ℕ → ℕ × ℕ)) (mem mem' : LimMem) (h : LimPasses m ok S R T hit rgs mem mem')
    (h0 : ∀ r ∈ mem.reads, r.2 ≤ mem.cnt r.1) : ∀ r ∈ mem'.reads, r.2 ≤ mem'.cnt r.1 := by
  induction h with
  | nil mem => exact h0
  | cons h1 next ih =>
    apply ih
    obtain ⟨prog, ls, _, _, hs, _⟩ := h1
    refine hs.invariant (fun c => ∀ r ∈ c.1.reads, r.2 ≤ c.1.cnt r.1) h0 ?_
    intro s ls t s' l' hI hst
    unfold limStep at hst
    split at hst
    · cases hst; exact hI
    · next x hp =>
      cases hst
      intro r hr
      have := hI r hr
      by_cases e : r.1 = x.sample
      · simp only [e, Function.update_self]
        rw [e] at this
        exact Nat.le_succ_of_le this
      · simp only [Function.update_of_ne e]; exact this
    · next x hp =>
      cases hst
      intro r hr
      rcases List.mem_append.mp hr with hr | hr
      · exact hI r hr
      · rw [List.mem_singleton.mp hr]
    · split at hst
      · cases hst; exact hI
      · cases hst

/-- The last write to an address counts. -/
theorem runWrites_last {A V : Type*} [DecidableEq A] (m : A → V) (tr : List (A × V)) (a : A)
    (h : ∃ w ∈ tr, w.1 = a) : ∃ w ∈ tr, w.1 = a ∧ runWrites m tr a = w.2 := by
  induction tr generalizing m with
  | nil => obtain ⟨w, hw, _⟩ := h; cases hw
  | cons x tr ih =>
    by_cases hx : ∃ w ∈ tr, w.1 = a
    · obtain ⟨w, h1, h2, h3⟩ := ih (Function.update m x.1 x.2) hx
      exact ⟨w, List.mem_cons_of_mem _ h1, h2, h3⟩
    · obtain ⟨w, hw, e⟩ := h
      rcases List.mem_cons.mp hw with rfl | hw
      · refine ⟨w, List.mem_cons_self, e, ?_⟩
        push Not at hx
        have := runWrites_not_mem (Function.update m w.1 w.2) tr a hx
        show runWrites (Function.update m w.1 w.2) tr a = w.2
        rw [this, ← e, Function.update_self]
      · exact absurd ⟨w, hw, e⟩ hx

/-- Executing a given schedule. -/
def runSched {S L : Type*} {T : ℕ} (step : S → L → Option (S × L)) :
    List (Fin T) → S × (Fin T → L) → Option (S × (Fin T → L))
  | [], c => some c
  | t :: ts, c =>
    match step c.1 (c.2 t) with
    | some (s', l') => runSched step ts (s', Function.update c.2 t l')
    | none => none

theorem runSched_steps {S L : Type*} {T : ℕ} (step : S → L → Option (S × L)) (ts : List (Fin T))
    (c0 c c' : S × (Fin T → L)) (h0 : Steps step c0 c) (h : runSched step ts c = some c') :
    Steps step c0 c' := by
  induction ts generalizing c with
  | nil => cases h; exact h0
  | cons t ts ih =>
    rw [runSched] at h
    split at h
    · next s' l' hs => exact ih _ (Steps.tail (s := c.1) (ls := c.2) h0 t hs) h
    · cases h

end PC
