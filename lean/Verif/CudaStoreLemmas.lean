import Verif.CudaStore
import Verif.CudaScanLemmas2

/-!
# Lemmas about the counting and storing kernels
-/

set_option linter.unusedVariables false
set_option linter.unusedSimpArgs false

namespace PC

/-! ### iteration space -/

/-- The positions of all ranges of sample `s` in a pass with `R` ranges that
pass the test, range after range. -/
def passFinds (R : ℕ) (rg : ℕ → ℕ × ℕ) (hit : ℕ → ℕ → Bool) (s : ℕ) : List ℕ :=
  (List.range R).flatMap (fun r =>
    (List.range' (rg (s * R + r)).1 ((rg (s * R + r)).2 - (rg (s * R + r)).1)).filter (hit s))

theorem range_mul_eq (a b : ℕ) :
    List.range (a * b) = (List.range a).flatMap (fun c => (List.range b).map (fun t => c * b + t)) := by
  induction a with
  | zero => simp
  | succ a ih =>
    rw [Nat.succ_mul, List.range_add, List.range_succ, List.flatMap_append, ih]
    simp

theorem strideLoop_shift (T N x l : ℕ) :
    strideLoop T N (x + l) = (strideLoop T (N - x) l).map (x + ·) := by
  induction hm : N - (x + l) using Nat.strong_induction_on generalizing l with
  | _ m ih =>
    rw [strideLoop.eq_def T N (x + l), strideLoop.eq_def T (N - x) l]
    by_cases h : x + l < N ∧ 0 < T
    · rw [dif_pos h, dif_pos ⟨by omega, h.2⟩, List.map_cons, Nat.add_assoc,
        ih (N - (x + (l + T))) (by omega) (l + T) rfl]
    · rw [dif_neg h, dif_neg (by omega)]; rfl

theorem strideLoop_shift_cover {T : ℕ} (hT : 0 < T) (x y : ℕ) :
    ((List.range T).flatMap (fun l => strideLoop T y (x + l))).Perm (List.range' x (y - x)) := by
  have e : (List.range T).flatMap (fun l => strideLoop T y (x + l)) =
      ((List.range T).map (strideLoop T (y - x))).flatten.map (x + ·) := by
    rw [List.map_flatten, List.flatMap_def, List.map_map]
    congr 1
    apply List.map_congr_left
    intro l _
    exact strideLoop_shift T y x l
  rw [e, List.range'_eq_map_range]
  exact (strideLoop_cover hT).map _

theorem iter_index {R s r l : ℕ} (hr : r < R) (hl : l < 16) :
    (s * (R * 16) + (r * 16 + l)) / (R * 16) = s ∧ (s * (R * 16) + (r * 16 + l)) / 16 = s * R + r ∧
      (s * (R * 16) + (r * 16 + l)) % 16 = l := by
  have h1 : r * 16 + l < R * 16 := by omega
  have h2 : s * (R * 16) + (r * 16 + l) = (s * R + r) * 16 + l := by ring
  refine ⟨?_, ?_, ?_⟩
  · rw [Nat.add_comm, Nat.add_mul_div_right _ _ (by omega), Nat.div_eq_of_lt h1, Nat.zero_add]
  · rw [h2]; omega
  · rw [h2]; omega

/-- All pairs found in a pass, sample after sample. -/
theorem iterPairs_perm (S R : ℕ) (rg : ℕ → ℕ × ℕ) (hit : ℕ → ℕ → Bool) :
    ((List.range (findIters S R)).flatMap (iterPairs R rg hit)).Perm
      ((List.range S).flatMap (fun s => (passFinds R rg hit s).map (fun p => (p, s)))) := by
  unfold findIters threadsPerRange
  rw [Nat.mul_assoc, range_mul_eq S (R * 16), List.flatMap_assoc]
  refine List.Perm.flatMap_left _ ?_
  intro s _
  rw [range_mul_eq R 16, List.map_flatMap, List.flatMap_assoc, passFinds, List.map_flatMap]
  refine List.Perm.flatMap_left _ ?_
  intro r hr
  rw [List.mem_range] at hr
  rw [List.map_map, List.flatMap_map]
  have e : ∀ l ∈ List.range 16, iterPairs R rg hit (((fun t => s * (R * 16) + t) ∘ fun t => r * 16 + t) l)
      = ((strideLoop 16 (rg (s * R + r)).2 ((rg (s * R + r)).1 + l)).filter (hit s)).map
        (fun p => (p, s)) := by
    intro l hl
    rw [List.mem_range] at hl
    obtain ⟨h1, h2, h3⟩ := iter_index (s := s) hr hl
    unfold iterPairs iterFinds iterSample threadsPerRange
    simp only [Function.comp, h1, h2, h3]
  rw [List.flatMap_congr e]
  have := ((strideLoop_shift_cover (T := 16) (by norm_num) (rg (s * R + r)).1 (rg (s * R + r)).2).filter
    (hit s)).map (fun p => (p, s))
  rw [List.filter_flatMap, List.map_flatMap] at this
  exact this

/-! ### storing -/

/-- The slots given to the pairs `items` (latest first). -/
def assignSlots (start : ℕ → ℕ) : List (ℕ × ℕ) → List (ℕ × (ℕ × ℕ))
  | [] => []
  | x :: older => (start x.2 + older.countP (fun y => y.2 = x.2), x) :: assignSlots start older

/-- What holds between passes: the pairs handled so far have been written to
their slots. -/
structure Stored (start : ℕ → ℕ) (items : List (ℕ × ℕ)) (m : StoreMem) : Prop where
  cnt : ∀ s, m.cnt s = start s + items.countP (fun y => y.2 = s)
  writes : m.writes.Perm (assignSlots start items)

/-- The pending write of a thread as a multiset. -/
def StoreThread.pendM (l : StoreThread) : Multiset (ℕ × (ℕ × ℕ)) :=
  match l.pend with
  | none => 0
  | some w => {w}

theorem sum_upd {T : ℕ} {L M : Type*} [AddCommMonoid M] (g : L → M) (ls : Fin T → L) (t : Fin T) (l : L) :
    ∑ x, g (Function.update ls t l x) + g (ls t) = ∑ x, g (ls x) + g l := by
  have h1 : ∑ x, g (Function.update ls t l x) = g l + ∑ x ∈ Finset.univ.erase t, g (ls x) := by
    rw [← Finset.add_sum_erase _ _ (Finset.mem_univ t), Function.update_self]
    congr 1
    refine Finset.sum_congr rfl ?_
    intro x hx
    rw [Function.update_of_ne (Finset.ne_of_mem_erase hx)]
  have h2 : ∑ x, g (ls x) = g (ls t) + ∑ x ∈ Finset.univ.erase t, g (ls x) :=
    (Finset.add_sum_erase _ _ (Finset.mem_univ t)).symm
  rw [h1, h2, add_comm, add_comm (g l), add_assoc]

/-- What holds after every step of a launch: `it` are the pairs that have got a slot. -/
theorem storeSteps_inv {T : ℕ} (prog : Fin T → List (ℕ × ℕ)) (start : ℕ → ℕ) (items : List (ℕ × ℕ))
    (m : StoreMem) (c' : StoreMem × (Fin T → StoreThread)) (h0 : Stored start items m)
    (hs : Steps storeStep (m, fun t => ⟨prog t, none⟩) c') :
    ∃ it : List (ℕ × ℕ), (∀ s, c'.1.cnt s = start s + it.countP (fun y => y.2 = s)) ∧
    ((c'.1.writes : Multiset _) + ∑ t, (c'.2 t).pendM = (assignSlots start it : Multiset _)) ∧
    ((it : Multiset (ℕ × ℕ)) + ∑ t, ((c'.2 t).todo : Multiset (ℕ × ℕ)) =
      items + ∑ t, (prog t : Multiset (ℕ × ℕ))) := by
  let I : StoreMem × (Fin T → StoreThread) → Prop := fun c => ∃ it : List (ℕ × ℕ),
    (∀ s, c.1.cnt s = start s + it.countP (fun y => y.2 = s)) ∧
    ((c.1.writes : Multiset _) + ∑ t, (c.2 t).pendM = (assignSlots start it : Multiset _)) ∧
    ((it : Multiset (ℕ × ℕ)) + ∑ t, ((c.2 t).todo : Multiset (ℕ × ℕ)) =
      items + ∑ t, (prog t : Multiset (ℕ × ℕ)))
  have hI : I c' := by
    refine hs.invariant I ?_ ?_
    · refine ⟨items, h0.cnt, ?_, rfl⟩
      simp only [StoreThread.pendM, Finset.sum_const_zero, add_zero]
      exact Multiset.coe_eq_coe.mpr h0.writes
    · rintro s l t s' l' ⟨it, i1, i2, i3⟩ hst
      have u1 := sum_upd StoreThread.pendM l t l'
      have u2 := sum_upd (fun x : StoreThread => (x.todo : Multiset (ℕ × ℕ))) l t l'
      simp only at i1 i2 i3
      unfold storeStep at hst
      split at hst
      · next td w hp =>
        cases hst
        refine ⟨it, i1, ?_, ?_⟩
        · rw [← i2]
          have e1 : (l t).pendM = {w} := by unfold StoreThread.pendM; rw [hp]
          have e2 : (⟨(l t).todo, none⟩ : StoreThread).pendM = 0 := rfl
          rw [e1, e2, add_zero] at u1
          rw [← u1, ← Multiset.coe_add, add_assoc]
          congr 1
          rw [add_comm]; rfl
        · rw [← i3]
          congr 1
          exact add_right_cancel u2
      · next x td hp ht =>
        cases hst
        have e1 : (l t).pendM = 0 := by unfold StoreThread.pendM; rw [hp]
        have e2 : (⟨td, some (s.cnt x.2, x)⟩ : StoreThread).pendM = {(s.cnt x.2, x)} := rfl
        rw [e1, e2, add_zero] at u1
        refine ⟨x :: it, ?_, ?_, ?_⟩
        · intro q
          simp only [List.countP_cons]
          by_cases hq : q = x.2
          · subst hq; rw [Function.update_self, i1]; simp; ring
          · rw [Function.update_of_ne hq, i1, if_neg]; · rfl
            simpa using fun e => hq e.symm
        · rw [u1, ← add_assoc, i2]
          rw [assignSlots, ← i1 x.2, ← Multiset.cons_coe, ← Multiset.singleton_add, add_comm]
        · rw [← i3]
          simp only [ht] at u2
          have u3 : ∑ y, ((Function.update l t ⟨td, some (s.cnt x.2, x)⟩ y).todo : Multiset (ℕ × ℕ)) + {x} =
              ∑ y, ((l y).todo : Multiset (ℕ × ℕ)) := by
            rw [← Multiset.cons_coe, ← Multiset.singleton_add, ← add_assoc] at u2
            exact add_right_cancel u2
          rw [← u3, ← Multiset.cons_coe, ← Multiset.singleton_add]
          show ({x} : Multiset (ℕ × ℕ)) + ↑it + _ = ↑it + (_ + ({x} : Multiset (ℕ × ℕ)))
          rw [add_assoc, add_left_comm, add_comm ({x} : Multiset (ℕ × ℕ))]
      · cases hst
  exact hI

theorem storeKernel_spec {T : ℕ} (prog : Fin T → List (ℕ × ℕ)) (start : ℕ → ℕ) (items : List (ℕ × ℕ))
    (m m' : StoreMem) (ls : Fin T → StoreThread) (h0 : Stored start items m)
    (hs : Steps storeStep (m, fun t => ⟨prog t, none⟩) (m', ls)) (hh : Halted storeStep (m', ls)) :
    ∃ items', Stored start items' m' ∧
      (items' : Multiset (ℕ × ℕ)) = items + ∑ t, (prog t : Multiset (ℕ × ℕ)) := by
  have hI := storeSteps_inv prog start items m (m', ls) h0 hs
  obtain ⟨it, i1, i2, i3⟩ := hI
  simp only at i1 i2 i3
  have hl : ∀ t, (ls t).pend = none ∧ (ls t).todo = [] := by
    intro t
    have := hh t
    simp only [storeStep] at this
    split at this
    · cases this
    · cases this
    · next h1 h2 => exact ⟨h1, h2⟩
  refine ⟨it, ⟨i1, ?_⟩, ?_⟩
  · rw [← Multiset.coe_eq_coe, ← i2]
    rw [Finset.sum_eq_zero, add_zero]
    intro t _
    unfold StoreThread.pendM; rw [(hl t).1]
  · rw [← i3, Finset.sum_eq_zero, add_zero]
    intro t _
    rw [(hl t).2]; rfl

theorem sum_coe_flatten {T : ℕ} {α : Type*} (f : ℕ → List α) :
    ∑ t : Fin T, (f t : Multiset α) = (((List.range T).map f).flatten : Multiset α) := by
  induction T with
  | zero => simp
  | succ T ih =>
    rw [Fin.sum_univ_castSucc]
    simp only [Fin.val_castSucc, Fin.val_last]
    rw [ih, List.range_succ, List.map_append, List.flatten_append]
    simp

/-- All pairs of a list of passes. -/
def allFinds (R : ℕ) (rgs : List (ℕ → ℕ × ℕ)) (hit : ℕ → ℕ → Bool) (s : ℕ) : List ℕ :=
  rgs.flatMap (fun rg => passFinds R rg hit s)

theorem storePass_spec {S R T : ℕ} (hT : 0 < T) (rg : ℕ → ℕ × ℕ) (hit : ℕ → ℕ → Bool) (start : ℕ → ℕ)
    (items : List (ℕ × ℕ)) (m m' : StoreMem) (h0 : Stored start items m)
    (h : StoreKernel S R T rg hit m m') :
    ∃ items', Stored start items' m' ∧ items'.Perm (items ++
      (List.range S).flatMap (fun s => (passFinds R rg hit s).map (fun p => (p, s)))) := by
  obtain ⟨ls, h1, h2⟩ := h
  obtain ⟨it, i1, i2⟩ := storeKernel_spec (fun t : Fin T => storeProg S R T rg hit t) start items m m' ls
    h0 h1 h2
  refine ⟨it, i1, ?_⟩
  rw [sum_coe_flatten, Multiset.coe_add, Multiset.coe_eq_coe] at i2
  refine i2.trans (List.Perm.append_left _ ?_)
  refine List.Perm.trans ?_ (iterPairs_perm S R rg hit)
  exact (Interleave.exists_seq _).perm.symm.trans
    (strideThreads_perm hT (iterPairs R rg hit) (Interleave.exists_seq _))

theorem flatMap_zip_perm {S : ℕ} (f g : ℕ → List ℕ) :
    ((List.range S).flatMap (fun s => (f s).map (fun p => (p, s))) ++
      (List.range S).flatMap (fun s => (g s).map (fun p => (p, s)))).Perm
      ((List.range S).flatMap (fun s => (f s ++ g s).map (fun p => (p, s)))) := by
  simp only [List.map_append]
  exact List.flatMap_append_perm _ _ _ 

/-- The pairs of sample `s` among all pairs. -/
theorem pairs_filter (S : ℕ) (f : ℕ → List ℕ) (s : ℕ) :
    ((List.range S).flatMap (fun x => (f x).map (fun p => (p, x)))).filter (fun y => y.2 = s) =
      if s < S then (f s).map (fun p => (p, s)) else [] := by
  induction S with
  | zero => simp
  | succ S ih =>
    rw [List.range_succ, List.flatMap_append, List.filter_append, ih]
    simp only [List.flatMap_cons, List.flatMap_nil, List.append_nil, List.filter_map]
    by_cases h : s = S
    · subst h
      simp [Function.comp_def]
    · have h' : ¬ S = s := fun e => h e.symm
      by_cases h2 : s < S
      · rw [if_pos h2, if_pos (by omega)]; simp [Function.comp_def, h']
      · rw [if_neg h2, if_neg (by omega)]; simp [Function.comp_def, h']

theorem pairs_count (S : ℕ) (f : ℕ → List ℕ) (s : ℕ) :
    ((List.range S).flatMap (fun x => (f x).map (fun p => (p, x)))).countP (fun y => y.2 = s) =
      if s < S then (f s).length else 0 := by
  rw [List.countP_eq_length_filter, pairs_filter]
  split <;> simp

theorem storePasses_spec {S R T : ℕ} (hT : 0 < T) (hit : ℕ → ℕ → Bool) (rgs : List (ℕ → ℕ × ℕ))
    (start : ℕ → ℕ) (f : ℕ → List ℕ) (items : List (ℕ × ℕ)) (m m' : StoreMem) (h0 : Stored start items m)
    (hi : items.Perm ((List.range S).flatMap (fun s => (f s).map (fun p => (p, s)))))
    (h : StorePasses S R T hit rgs m m') :
    ∃ items', Stored start items' m' ∧ items'.Perm
      ((List.range S).flatMap (fun s => (f s ++ allFinds R rgs hit s).map (fun p => (p, s)))) := by
  induction h generalizing f items with
  | nil m => exact ⟨items, h0, by simpa [allFinds] using hi⟩
  | @cons rg rest m m1 m2 h next ih =>
    obtain ⟨it, i1, i2⟩ := storePass_spec hT rg hit start items m m1 h0 h
    have i3 := (i2.trans (hi.append_right _)).trans (flatMap_zip_perm f (passFinds R rg hit))
    obtain ⟨it', j1, j2⟩ := ih (fun s => f s ++ passFinds R rg hit s) it i1 i3
    refine ⟨it', j1, ?_⟩
    simpa [allFinds, List.append_assoc] using j2

/-- A step system whose threads make progress can run to the end. -/
theorem Steps.exists_halted {S L : Type*} {T : ℕ} (step : S → L → Option (S × L)) (μ : L → ℕ)
    (hμ : ∀ s l s' l', step s l = some (s', l') → μ l' < μ l) (c : S × (Fin T → L)) :
    ∃ c', Steps step c c' ∧ Halted step c' := by
  have key : ∀ n (c' : S × (Fin T → L)), ∑ t, μ (c'.2 t) = n → Steps step c c' →
      ∃ c'', Steps step c c'' ∧ Halted step c'' := by
    intro n
    induction n using Nat.strong_induction_on with
    | _ n ih =>
      intro c' hn hs
      by_cases hh : Halted step c'
      · exact ⟨c', hs, hh⟩
      · unfold Halted at hh
        push Not at hh
        obtain ⟨t, ht⟩ := hh
        obtain ⟨⟨s', l'⟩, hst⟩ := Option.ne_none_iff_exists'.mp ht
        have hd := hμ _ _ _ _ hst
        have hu := sum_upd μ c'.2 t l'
        exact ih (∑ x, μ (Function.update c'.2 t l' x)) (by omega) (s', Function.update c'.2 t l') rfl
          (Steps.tail (s := c'.1) (ls := c'.2) hs t hst)
  exact key _ c rfl (.refl c)

theorem exists_storeKernel (S R T : ℕ) (rg : ℕ → ℕ × ℕ) (hit : ℕ → ℕ → Bool) (m : StoreMem) :
    ∃ m', StoreKernel S R T rg hit m m' := by
  obtain ⟨⟨m', ls⟩, h1, h2⟩ := Steps.exists_halted (T := T) storeStep
    (fun l => 2 * l.todo.length + (if l.pend.isSome then 1 else 0)) (by
      intro s l s' l' h
      unfold storeStep at h
      split at h
      · next hp => cases h; simp [hp]
      · next hp ht => cases h; simp [hp, ht]; omega
      · cases h) (m, fun t => ⟨storeProg S R T rg hit t, none⟩)
  exact ⟨m', ls, h1, h2⟩

theorem exists_storePasses (S R T : ℕ) (hit : ℕ → ℕ → Bool) (rgs : List (ℕ → ℕ × ℕ)) (m : StoreMem) :
    ∃ m', StorePasses S R T hit rgs m m' := by
  induction rgs generalizing m with
  | nil => exact ⟨m, .nil m⟩
  | cons rg rest ih =>
    obtain ⟨m1, h1⟩ := exists_storeKernel S R T rg hit m
    obtain ⟨m2, h2⟩ := ih m1
    exact ⟨m2, .cons h1 h2⟩

theorem exists_countPasses (S R B W : ℕ) (hit : ℕ → ℕ → Bool) (rgs : List (ℕ → ℕ × ℕ)) (cnt : ℕ → ℕ) :
    ∃ cnt', CountPasses S R B W hit rgs cnt cnt' := by
  induction rgs generalizing cnt with
  | nil => exact ⟨cnt, .nil cnt⟩
  | cons rg rest ih =>
    have hb : ∀ b, ∃ (l : List (ℕ × ℕ)) (sh : ℕ → ℕ) (btr : List CountAct),
        Phased (countBlock R B (findIters S R) (launchBlocks W (execBlocks (findIters S R) B)) rg hit b) btr ∧
          l = (countRun R B sh btr).2 :=
      fun b => by
        obtain ⟨btr, h⟩ := Phased.exists_seq (countBlock R B (findIters S R)
          (launchBlocks W (execBlocks (findIters S R) B)) rg hit b)
        exact ⟨_, fun _ => 0, btr, h, rfl⟩
    choose l hl using hb
    have h1 : CountKernel S R B W rg hit cnt (runAdds cnt
        ((List.range (launchBlocks W (execBlocks (findIters S R) B))).map l).flatten) := by
      refine ⟨_, _, ?_, ?_, Interleave.exists_seq _, rfl⟩
      · simp
      · intro b l' hb
        simp only [List.getElem?_map, Option.map_eq_some_iff] at hb
        obtain ⟨x, hx, rfl⟩ := hb
        have : x = b := by
          rw [List.getElem?_eq_some_iff] at hx
          obtain ⟨h, e⟩ := hx
          simpa using e.symm
        subst this
        exact hl x
    obtain ⟨cnt', h2⟩ := ih _
    exact ⟨cnt', .cons h1 h2⟩

/-! ### what the slots hold -/

theorem assignSlots_items (start : ℕ → ℕ) (items : List (ℕ × ℕ)) :
    (assignSlots start items).map Prod.snd = items := by
  induction items with
  | nil => rfl
  | cons x older ih => rw [assignSlots, List.map_cons, ih]

/-- The slots of the pairs of sample `s`, in order. -/
theorem assignSlots_slots (start : ℕ → ℕ) (items : List (ℕ × ℕ)) (s : ℕ) :
    (((assignSlots start items).filter (fun w => w.2.2 = s)).map Prod.fst).reverse =
      List.range' (start s) (items.countP (fun y => y.2 = s)) := by
  induction items with
  | nil => simp [assignSlots]
  | cons x older ih =>
    rw [assignSlots, List.filter_cons]
    by_cases h : x.2 = s
    · simp only [h, decide_true, if_true, List.map_cons, List.reverse_cons, ih, List.countP_cons]
      rw [List.range'_concat]
      simp [h]
    · simp only [h, decide_false, List.countP_cons]
      simpa using ih

theorem assignSlots_range (start : ℕ → ℕ) (items : List (ℕ × ℕ)) (w : ℕ × (ℕ × ℕ))
    (hw : w ∈ assignSlots start items) :
    start w.2.2 ≤ w.1 ∧ w.1 < start w.2.2 + items.countP (fun y => y.2 = w.2.2) := by
  have h : w.1 ∈ List.range' (start w.2.2) (items.countP (fun y => y.2 = w.2.2)) := by
    rw [← assignSlots_slots, List.mem_reverse]
    exact List.mem_map_of_mem (List.mem_filter.mpr ⟨hw, by simp⟩)
  rw [List.mem_range'_1] at h
  exact h

/-- Different pairs get different slots when the slot ranges are disjoint. -/
theorem assignSlots_nodup (start : ℕ → ℕ) (items : List (ℕ × ℕ))
    (hd : ∀ s s', s < s' → s' ∈ items.map Prod.snd →
      start s + items.countP (fun y => y.2 = s) ≤ start s') :
    ((assignSlots start items).map Prod.fst).Nodup := by
  have key : (assignSlots start items).Pairwise (fun a b => a.1 ≠ b.1) := by
    have hsame : ∀ s, (((assignSlots start items).filter (fun w => w.2.2 = s)).map Prod.fst).Nodup := by
      intro s
      rw [← List.nodup_reverse, assignSlots_slots]
      exact List.nodup_range'
    rw [List.pairwise_iff_getElem]
    intro i j hi hj hij e
    have hmi := List.getElem_mem hi
    have hmj := List.getElem_mem hj
    have hr1 := assignSlots_range start items _ hmi
    have hr2 := assignSlots_range start items _ hmj
    have hin : ∀ w ∈ assignSlots start items, w.2.2 ∈ items.map Prod.snd := by
      intro w hw
      have := List.mem_map_of_mem (f := Prod.snd) hw
      rw [assignSlots_items] at this
      exact List.mem_map_of_mem this
    have hs : (assignSlots start items)[i].2.2 = (assignSlots start items)[j].2.2 := by
      by_contra hne
      rcases Nat.lt_or_gt_of_ne hne with hl | hl
      · have := hd _ _ hl (hin _ hmj)
        omega
      · have := hd _ _ hl (hin _ hmi)
        omega
    have h1 := hsame (assignSlots start items)[i].2.2
    rw [List.Nodup, List.pairwise_map, List.pairwise_filter, List.pairwise_iff_getElem] at h1
    exact h1 i j hi hj hij (by simp) (by simp [hs]) e
  rw [List.Nodup, List.pairwise_map]
  exact key

end PC
