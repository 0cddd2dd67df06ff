import Verif.Sched
import Mathlib.Data.Set.Basic

/-!
# Actions on memory, footprints and barriers

An action is a function on memories (one read into a register, one write, one
assignment).  Registers and shared memory are addresses too.  The main lemma:
if every thread touches only its own footprint (and reads a part of memory that
nobody writes), the memory after any interleaving is, on each footprint, the
one obtained by running that thread alone.
-/

namespace PC

variable {A V : Type*}

/-- Run a list of actions. -/
def runActs (m : A → V) (tr : List ((A → V) → (A → V))) : A → V := tr.foldl (fun m act => act m) m

theorem runActs_nil (m : A → V) : runActs m [] = m := rfl

theorem runActs_cons (m : A → V) (act : (A → V) → (A → V)) (tr : List ((A → V) → (A → V))) :
    runActs m (act :: tr) = runActs (act m) tr := rfl

theorem runActs_append (m : A → V) (t1 t2 : List ((A → V) → (A → V))) :
    runActs m (t1 ++ t2) = runActs (runActs m t1) t2 := by
  unfold runActs; exact List.foldl_append

/-- The action writes only inside `F` and what it writes depends only on `F` and
`R`. -/
structure LocalTo (R F : Set A) (act : (A → V) → (A → V)) : Prop where
  frame : ∀ m a, a ∉ F → act m a = m a
  dep : ∀ m m' : A → V, (∀ a, a ∈ F ∨ a ∈ R → m a = m' a) → ∀ a ∈ F, act m a = act m' a

/-- `dst := f memory`. -/
def assign [DecidableEq A] (dst : A) (f : (A → V) → V) (m : A → V) : A → V :=
  Function.update m dst (f m)

theorem assign_self [DecidableEq A] (dst : A) (f : (A → V) → V) (m : A → V) :
    assign dst f m dst = f m := Function.update_self _ _ _

theorem assign_ne [DecidableEq A] {dst a : A} (f : (A → V) → V) (m : A → V) (h : a ≠ dst) :
    assign dst f m a = m a := Function.update_of_ne h _ _

theorem LocalTo.assign [DecidableEq A] {R F : Set A} {dst : A} {f : (A → V) → V} (hd : dst ∈ F)
    (hf : ∀ m m' : A → V, (∀ a, a ∈ F ∨ a ∈ R → m a = m' a) → f m = f m') :
    LocalTo R F (assign dst f) := by
  constructor
  · intro m a ha
    exact assign_ne f m (fun e => ha (e ▸ hd))
  · intro m m' h a ha
    by_cases e : a = dst
    · rw [e, assign_self, assign_self]; exact hf m m' h
    · rw [assign_ne f m e, assign_ne f m' e]; exact h a (Or.inl ha)

theorem LocalTo.mono {R F R' F' : Set A} {act : (A → V) → (A → V)} (h : LocalTo R F act)
    (hF : ∀ a ∈ F, a ∈ F') (hR : ∀ a ∈ R, a ∈ F' ∨ a ∈ R') : LocalTo R' F' act := by
  constructor
  · intro m a ha
    exact h.frame m a (fun h' => ha (hF a h'))
  · intro m m' hm a ha
    by_cases hi : a ∈ F
    · refine h.dep m m' ?_ a hi
      rintro x (hx | hx)
      · exact hm x (Or.inl (hF x hx))
      · exact hm x (hR x hx)
    · rw [h.frame m a hi, h.frame m' a hi]; exact hm a (Or.inl ha)

theorem runActs_frame {R F : Set A} (m : A → V) (tr : List ((A → V) → (A → V)))
    (h : ∀ act ∈ tr, LocalTo R F act) (a : A) (ha : a ∉ F) : runActs m tr a = m a := by
  induction tr generalizing m with
  | nil => rfl
  | cons act tr ih =>
    rw [runActs_cons, ih _ (fun x hx => h x (List.mem_cons_of_mem _ hx))]
    exact (h act List.mem_cons_self).frame m a ha

theorem runActs_dep {R F : Set A} (m m' : A → V)
    (tr : List ((A → V) → (A → V))) (h : ∀ act ∈ tr, LocalTo R F act)
    (hm : ∀ a, a ∈ F ∨ a ∈ R → m a = m' a) (a : A) (ha : a ∈ F ∨ a ∈ R) :
    runActs m tr a = runActs m' tr a := by
  induction tr generalizing m m' with
  | nil => exact hm a ha
  | cons act tr ih =>
    have hl := h act List.mem_cons_self
    refine ih (act m) (act m') (fun x hx => h x (List.mem_cons_of_mem _ hx)) ?_
    intro x hx
    by_cases hxF : x ∈ F
    · exact hl.dep m m' hm x hxF
    · rw [hl.frame m x hxF, hl.frame m' x hxF]; exact hm x hx

/-- Footprint lemma: every interleaving of threads with disjoint footprints acts
on each footprint like that thread alone, and nowhere else. -/
theorem Interleave.run_local {ps : List (List ((A → V) → (A → V)))} {tr : List ((A → V) → (A → V))}
    (hi : Interleave ps tr) (R : Set A) (F : ℕ → Set A) (hRF : ∀ t, ∀ a ∈ R, a ∉ F t)
    (hF : ∀ t t', t ≠ t' → ∀ a ∈ F t, a ∉ F t')
    (hl : ∀ t p, ps[t]? = some p → ∀ act ∈ p, LocalTo R (F t) act) (m : A → V) :
    (∀ t p, ps[t]? = some p → ∀ a ∈ F t, runActs m tr a = runActs m p a) ∧
    (∀ a, (∀ t < ps.length, a ∉ F t) → runActs m tr a = m a) := by
  induction hi generalizing m with
  | done h =>
    refine ⟨?_, fun a _ => rfl⟩
    intro t p hp a _
    rw [h p (List.mem_of_getElem? hp)]
  | @step ps tr t act rest h next ih =>
    have ht : t < ps.length := (List.getElem?_eq_some_iff.mp h).1
    have hact : LocalTo R (F t) act := hl t _ h act List.mem_cons_self
    have hl' : ∀ u p, (ps.set t rest)[u]? = some p → ∀ x ∈ p, LocalTo R (F u) x := by
      intro u p hp x hx
      by_cases hu : t = u
      · subst hu
        rw [List.getElem?_set_self ht] at hp
        cases hp
        exact hl t _ h x (List.mem_cons_of_mem _ hx)
      · rw [List.getElem?_set_ne hu] at hp
        exact hl u p hp x hx
    obtain ⟨ih1, ih2⟩ := ih hl' (act m)
    constructor
    · intro u p hp a ha
      rw [runActs_cons]
      by_cases hu : t = u
      · subst hu
        rw [h] at hp
        cases hp
        exact ih1 t rest (List.getElem?_set_self ht) a ha
      · rw [ih1 u p (by rw [List.getElem?_set_ne hu]; exact hp) a ha]
        refine runActs_dep _ _ p (hl u p hp) ?_ a (Or.inl ha)
        rintro x (hx | hx)
        · exact hact.frame m x (hF u t (fun e => hu e.symm) x hx)
        · exact hact.frame m x (hRF t x hx)
    · intro a ha
      rw [runActs_cons, ih2 a (by rw [List.length_set]; exact ha)]
      exact hact.frame m a (ha t ht)

/-- Actions of an interleaving are actions of the threads. -/
theorem Interleave.mem {α : Type*} {ps : List (List α)} {tr : List α} (h : Interleave ps tr) {a : α}
    (ha : a ∈ tr) : ∃ p ∈ ps, a ∈ p :=
  List.mem_flatten.mp (h.perm.mem_iff.mp ha)

/-- A block executes phases separated by barriers (`__syncthreads`): within a
phase the threads interleave, no thread starts a phase before all finished the
previous one. -/
inductive Phased {α : Type*} : List (List (List α)) → List α → Prop
  | nil : Phased [] []
  | cons {ps : List (List α)} {rest : List (List (List α))} {t1 t2 : List α}
      (h : Interleave ps t1) (next : Phased rest t2) : Phased (ps :: rest) (t1 ++ t2)

theorem Phased.mem {α : Type*} {phs : List (List (List α))} {tr : List α} (h : Phased phs tr) {a : α}
    (ha : a ∈ tr) : ∃ ps ∈ phs, ∃ p ∈ ps, a ∈ p := by
  induction h with
  | nil => cases ha
  | cons h next ih =>
    rcases List.mem_append.mp ha with ha | ha
    · obtain ⟨p, hp, hap⟩ := h.mem ha
      exact ⟨_, List.mem_cons_self, p, hp, hap⟩
    · obtain ⟨ps, hps, r⟩ := ih ha
      exact ⟨ps, List.mem_cons_of_mem _ hps, r⟩

theorem Phased.append_inv {α : Type*} {p1 p2 : List (List (List α))} {tr : List α}
    (h : Phased (p1 ++ p2) tr) : ∃ t1 t2, tr = t1 ++ t2 ∧ Phased p1 t1 ∧ Phased p2 t2 := by
  induction p1 generalizing tr with
  | nil => exact ⟨[], tr, rfl, .nil, h⟩
  | cons p p1 ih =>
    cases h with
    | cons h next =>
      obtain ⟨t1, t2, rfl, a, b⟩ := ih next
      exact ⟨_, t2, (List.append_assoc _ _ _).symm, .cons h a, b⟩

theorem Phased.single_inv {α : Type*} {p : List (List α)} {tr : List α} (h : Phased [p] tr) :
    Interleave p tr := by
  cases h with
  | cons h next =>
    cases next
    rw [List.append_nil]
    exact h

theorem Phased.exists_seq {α : Type*} (phs : List (List (List α))) : ∃ tr, Phased phs tr := by
  induction phs with
  | nil => exact ⟨[], .nil⟩
  | cons p phs ih =>
    obtain ⟨tr, h⟩ := ih
    exact ⟨_, .cons (Interleave.exists_seq p) h⟩

end PC
