import Verif.SchedMem

/-!
# Actions with effects

Threads of a block act on the memory of the block (shared memory and
registers); some actions also have an effect on global memory (a write or an
atomic addition), which is recorded.  The kernels modelled with this never read
the global memory they write.
-/

namespace PC

variable {A V E : Type*}

/-- One action: new block memory and effects on global memory. -/
abbrev BAct (A V E : Type*) := (A → V) → (A → V) × List E

/-- Run a list of actions. -/
def runB (m : A → V) : List (BAct A V E) → (A → V) × List E
  | [] => (m, [])
  | act :: tr => ((runB (act m).1 tr).1, (act m).2 ++ (runB (act m).1 tr).2)

theorem runB_append (m : A → V) (t1 t2 : List (BAct A V E)) :
    runB m (t1 ++ t2) = ((runB (runB m t1).1 t2).1, (runB m t1).2 ++ (runB (runB m t1).1 t2).2) := by
  induction t1 generalizing m with
  | nil => simp [runB]
  | cons a t1 ih => simp [runB, ih, List.append_assoc]

/-- `dst := f memory`, without effect. -/
def setB [DecidableEq A] (dst : A) (f : (A → V) → V) : BAct A V E :=
  fun m => (Function.update m dst (f m), [])

/-- An effect that depends on the memory. -/
def emitB (f : (A → V) → E) : BAct A V E := fun m => (m, [f m])

/-- The action writes only inside `F`, and what it writes and its effects depend
only on `F` and `R`. -/
structure LocalB (R F : Set A) (act : BAct A V E) : Prop where
  frame : ∀ m a, a ∉ F → (act m).1 a = m a
  dep : ∀ m m' : A → V, (∀ a, a ∈ F ∨ a ∈ R → m a = m' a) → ∀ a ∈ F, (act m).1 a = (act m').1 a
  emit : ∀ m m' : A → V, (∀ a, a ∈ F ∨ a ∈ R → m a = m' a) → (act m).2 = (act m').2

theorem LocalB.setB [DecidableEq A] {R F : Set A} {dst : A} {f : (A → V) → V} (hd : dst ∈ F)
    (hf : ∀ m m' : A → V, (∀ a, a ∈ F ∨ a ∈ R → m a = m' a) → f m = f m') :
    LocalB R F (setB dst f : BAct A V E) := by
  refine ⟨?_, ?_, fun _ _ _ => rfl⟩
  · intro m a ha
    have : a ≠ dst := fun e => ha (by rw [e]; exact hd)
    exact Function.update_of_ne this _ _
  · intro m m' h a ha
    by_cases e : a = dst
    · subst e
      simp only [PC.setB, Function.update_self]
      exact hf m m' h
    · simp only [PC.setB, Function.update_of_ne e]
      exact h a (Or.inl ha)

theorem LocalB.emitB {R F : Set A} {f : (A → V) → E}
    (hf : ∀ m m' : A → V, (∀ a, a ∈ F ∨ a ∈ R → m a = m' a) → f m = f m') :
    LocalB R F (emitB f : BAct A V E) :=
  ⟨fun _ _ _ => rfl, fun m m' h a ha => h a (Or.inl ha), fun m m' h => by simp only [PC.emitB, hf m m' h]⟩

theorem runB_frame {R F : Set A} (m : A → V) (tr : List (BAct A V E))
    (h : ∀ act ∈ tr, LocalB R F act) (a : A) (ha : a ∉ F) : (runB m tr).1 a = m a := by
  induction tr generalizing m with
  | nil => rfl
  | cons act tr ih =>
    rw [runB]
    simp only
    rw [ih _ (fun x hx => h x (List.mem_cons_of_mem _ hx))]
    exact (h act List.mem_cons_self).frame m a ha

theorem runB_dep {R F : Set A} (m m' : A → V)
    (tr : List (BAct A V E)) (h : ∀ act ∈ tr, LocalB R F act)
    (hm : ∀ a, a ∈ F ∨ a ∈ R → m a = m' a) :
    (∀ a, a ∈ F ∨ a ∈ R → (runB m tr).1 a = (runB m' tr).1 a) ∧ (runB m tr).2 = (runB m' tr).2 := by
  induction tr generalizing m m' with
  | nil => exact ⟨hm, rfl⟩
  | cons act tr ih =>
    have hl := h act List.mem_cons_self
    have hm1 : ∀ x, x ∈ F ∨ x ∈ R → (act m).1 x = (act m').1 x := by
      intro x hx
      by_cases hxF : x ∈ F
      · exact hl.dep m m' hm x hxF
      · rw [hl.frame m x hxF, hl.frame m' x hxF]; exact hm x hx
    obtain ⟨i1, i2⟩ := ih (act m).1 (act m').1 (fun x hx => h x (List.mem_cons_of_mem _ hx)) hm1
    refine ⟨i1, ?_⟩
    simp only [runB]
    rw [hl.emit m m' hm, i2]

/-- Footprint lemma with effects: every interleaving of threads with disjoint
footprints acts on each footprint like that thread alone, nowhere else, and
has the effects of all threads, each run alone. -/
theorem Interleave.run_localB {ps : List (List (BAct A V E))} {tr : List (BAct A V E)}
    (hi : Interleave ps tr) (R : Set A) (F : ℕ → Set A) (hRF : ∀ t, ∀ a ∈ R, a ∉ F t)
    (hF : ∀ t t', t ≠ t' → ∀ a ∈ F t, a ∉ F t')
    (hl : ∀ t p, ps[t]? = some p → ∀ act ∈ p, LocalB R (F t) act) (m : A → V) :
    (∀ t p, ps[t]? = some p → ∀ a ∈ F t, (runB m tr).1 a = (runB m p).1 a) ∧
    (∀ a, (∀ t < ps.length, a ∉ F t) → (runB m tr).1 a = m a) ∧
    (runB m tr).2.Perm (ps.flatMap (fun p => (runB m p).2)) := by
  induction hi generalizing m with
  | @done ps h =>
    refine ⟨?_, fun a _ => rfl, ?_⟩
    · intro t p hp a _
      rw [h p (List.mem_of_getElem? hp)]
    · have : ps.flatMap (fun p => (runB m p).2) = [] := by
        rw [List.flatMap_eq_nil_iff]
        intro p hp
        rw [h p hp]
        rfl
      rw [this]
      exact List.Perm.refl _
  | @step ps tr t act rest h next ih =>
    have ht : t < ps.length := (List.getElem?_eq_some_iff.mp h).1
    have hact : LocalB R (F t) act := hl t _ h act List.mem_cons_self
    have hl' : ∀ u p, (ps.set t rest)[u]? = some p → ∀ x ∈ p, LocalB R (F u) x := by
      intro u p hp x hx
      by_cases hu : t = u
      · subst hu
        rw [List.getElem?_set_self ht] at hp
        cases hp
        exact hl t _ h x (List.mem_cons_of_mem _ hx)
      · rw [List.getElem?_set_ne hu] at hp
        exact hl u p hp x hx
    have hother : ∀ u, t ≠ u → ∀ x, x ∈ F u ∨ x ∈ R → (act m).1 x = m x := by
      intro u hu x hx
      rcases hx with hx | hx
      · exact hact.frame m x (hF u t (fun e => hu e.symm) x hx)
      · exact hact.frame m x (hRF t x hx)
    obtain ⟨ih1, ih2, ih3⟩ := ih hl' (act m).1
    refine ⟨?_, ?_, ?_⟩
    · intro u p hp a ha
      simp only [runB]
      by_cases hu : t = u
      · subst hu
        rw [h] at hp
        cases hp
        exact ih1 t rest (List.getElem?_set_self ht) a ha
      · rw [ih1 u p (by rw [List.getElem?_set_ne hu]; exact hp) a ha]
        exact (runB_dep _ _ p (hl u p hp) (hother u hu)).1 a (Or.inl ha)
    · intro a ha
      simp only [runB]
      rw [ih2 a (by rw [List.length_set]; exact ha)]
      exact hact.frame m a (ha t ht)
    · simp only [runB]
      refine (ih3.append_left _).trans ?_
      -- split the list at thread `t`
      have hdec : ps = ps.take t ++ (act :: rest) :: ps.drop (t + 1) := by
        have e := List.getElem?_eq_some_iff.mp h
        obtain ⟨_, e⟩ := e
        conv_lhs => rw [← List.take_append_drop t ps]
        rw [List.drop_eq_getElem_cons ht, e]
      have hset : ps.set t rest = ps.take t ++ rest :: ps.drop (t + 1) := by
        rw [List.set_eq_take_append_cons_drop, if_pos ht]
      have hsame : ∀ u p, t ≠ u → ps[u]? = some p → (runB (act m).1 p).2 = (runB m p).2 :=
        fun u p hu hp => (runB_dep _ _ p (hl u p hp) (hother u hu)).2
      have e1 : (ps.take t).flatMap (fun p => (runB (act m).1 p).2) = (ps.take t).flatMap (fun p => (runB m p).2) := by
        rw [List.flatMap_def, List.flatMap_def]
        congr 1
        refine List.map_congr_left (fun p hp => ?_)
        obtain ⟨u, hu, rfl⟩ := List.mem_iff_getElem.mp hp
        rw [List.length_take] at hu
        refine hsame u _ (by omega) ?_
        rw [List.getElem_take, List.getElem?_eq_getElem]
      have e2 : (ps.drop (t + 1)).flatMap (fun p => (runB (act m).1 p).2) =
          (ps.drop (t + 1)).flatMap (fun p => (runB m p).2) := by
        rw [List.flatMap_def, List.flatMap_def]
        congr 1
        refine List.map_congr_left (fun p hp => ?_)
        obtain ⟨u, hu, rfl⟩ := List.mem_iff_getElem.mp hp
        rw [List.length_drop] at hu
        refine hsame (t + 1 + u) _ (by omega) ?_
        rw [List.getElem_drop, List.getElem?_eq_getElem]
      rw [hset]
      conv_rhs => rw [hdec]
      rw [List.flatMap_append, List.flatMap_append, List.flatMap_cons, List.flatMap_cons, e1, e2]
      simp only [runB]
      rw [← List.append_assoc, ← List.append_assoc, ← List.append_assoc]
      refine List.Perm.append_right _ ?_
      rw [← List.append_assoc]
      exact List.Perm.append_right _ List.perm_append_comm

/-- One phase of a block of `n` threads that all execute `prog`. -/
theorem phase_localB {n : ℕ} {prog : ℕ → List (BAct A V E)} {tr : List (BAct A V E)}
    (hi : Interleave ((List.range n).map prog) tr) (R : Set A) (F : ℕ → Set A)
    (hRF : ∀ t, ∀ a ∈ R, a ∉ F t) (hF : ∀ t t', t ≠ t' → ∀ a ∈ F t, a ∉ F t')
    (hl : ∀ t < n, ∀ act ∈ prog t, LocalB R (F t) act) (m : A → V) :
    (∀ t < n, ∀ a ∈ F t, (runB m tr).1 a = (runB m (prog t)).1 a) ∧
    (∀ a, (∀ t < n, a ∉ F t) → (runB m tr).1 a = m a) ∧
    (runB m tr).2.Perm ((List.range n).flatMap (fun t => (runB m (prog t)).2)) := by
  have hg : ∀ t p, ((List.range n).map prog)[t]? = some p → t < n ∧ p = prog t := by
    intro t p h
    rw [List.getElem?_map, Option.map_eq_some_iff] at h
    obtain ⟨u, hu, rfl⟩ := h
    obtain ⟨h1, h2⟩ := List.getElem?_eq_some_iff.mp hu
    rw [List.length_range] at h1
    rw [List.getElem_range] at h2
    subst h2
    exact ⟨h1, rfl⟩
  obtain ⟨h1, h2, h3⟩ := hi.run_localB R F hRF hF (by
    intro t p hp
    obtain ⟨ht, rfl⟩ := hg t p hp
    exact hl t ht) m
  refine ⟨?_, ?_, ?_⟩
  · intro t ht
    refine h1 t (prog t) ?_
    rw [List.getElem?_map, List.getElem?_eq_getElem (by simpa using ht)]
    simp
  · intro a ha
    exact h2 a (by simpa using ha)
  · rw [List.flatMap_map] at h3
    exact h3

end PC
