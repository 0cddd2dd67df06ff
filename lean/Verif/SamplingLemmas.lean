import Verif.Sampling
import Verif.Props.Neighbors2

/-! Helper lemmas about sampling. -/

set_option linter.unusedVariables false
set_option linter.unusedSectionVars false

namespace PC

/-! ### new keys -/

theorem repeatRange_shift (s : List ℕ) (k : ℕ) :
    (s.zipIdx (k + 1)).flatMap (fun p => List.replicate p.1 p.2) =
      ((s.zipIdx k).flatMap (fun p => List.replicate p.1 p.2)).map (· + 1) := by
  induction s generalizing k with
  | nil => rfl
  | cons a s ih => simp [List.zipIdx_cons, ih, List.map_append]

theorem repeatRange_cons (c : ℕ) (s : List ℕ) :
    repeatRange (c :: s) = List.replicate c 0 ++ (repeatRange s).map (· + 1) := by
  unfold repeatRange
  rw [List.zipIdx_cons, List.flatMap_cons, repeatRange_shift]

theorem uniq_block (c a : ℕ) (l : List ℕ) (hc : 0 < c) (ha : a ∉ l) :
    (List.replicate c a ++ l).reverse.dedup.reverse = a :: l.reverse.dedup.reverse := by
  rw [List.reverse_append, List.reverse_replicate, List.dedup_append]
  have : (List.replicate c a).dedup = [a] := by
    rw [List.replicate_dedup (by omega)]
  rw [this]
  have hd : List.Disjoint l.reverse [a] := by
    intro x hx hx'
    simp only [List.mem_singleton] at hx'
    subst hx'
    exact ha (by simpa using hx)
  have : l.reverse ∪ [a] = l.reverse.dedup ++ [a] := by
    rw [← this]
    rw [← List.dedup_append]
    rw [List.Disjoint.dedup_append]
    intro x hx hx'
    have : x = a := List.eq_of_mem_replicate hx'
    subst this
    exact ha (by simpa using hx)
  rw [this]
  simp

theorem newKeys_block (c a : ℕ) (l : List ℕ) (hc : 0 < c) (ha : a ∉ l) :
    newKeys (List.replicate c a ++ l) = List.replicate c 0 ++ (newKeys l).map (· + 1) ∧
    (uniqueWithCounts (List.replicate c a ++ l)).length = (uniqueWithCounts l).length + 1 := by
  unfold newKeys uniqueWithCounts
  rw [uniq_block c a l hc ha]
  refine ⟨?_, by simp⟩
  simp only [List.map_cons, List.map_map]
  rw [repeatRange_cons]
  have hca : (List.replicate c a ++ l).count a = c := by
    rw [List.count_append, List.count_replicate_self, List.count_eq_zero_of_not_mem ha]; rfl
  rw [hca]
  congr 2
  apply congrArg repeatRange
  apply List.map_congr_left
  intro b hb
  have hb' : b ∈ l := by simpa using hb
  have hne : b ≠ a := fun h => ha (h ▸ hb')
  simp only [Function.comp]
  rw [List.count_append, List.count_replicate]
  simp [Ne.symm hne]

/-- For a non-increasing list of keys, `new_keys` numbers the different keys. -/
theorem newKeys_spec (l : List ℕ) (hs : l.Pairwise (· ≥ ·)) :
    (newKeys l).length = l.length ∧
    (∀ i j, i < l.length → j < l.length →
      ((newKeys l).getD i 0 = (newKeys l).getD j 0 ↔ l.getD i 0 = l.getD j 0)) ∧
    (∀ i, i < l.length → (newKeys l).getD i 0 < (uniqueWithCounts l).length) ∧
    (∀ s, s < (uniqueWithCounts l).length → ∃ i, i < l.length ∧ (newKeys l).getD i 0 = s) := by
  induction hn : l.length using Nat.strong_induction_on generalizing l with
  | _ n ih =>
  cases l with
  | nil =>
    subst hn
    refine ⟨rfl, by simp, by simp, ?_⟩
    intro s hs
    simp [uniqueWithCounts] at hs
  | cons a t =>
    -- split off the block of `a`
    obtain ⟨c, l', hl, hal⟩ : ∃ c l', t = List.replicate c a ++ l' ∧ a ∉ l' := by
      refine ⟨(t.takeWhile (· = a)).length, t.dropWhile (· = a), ?_, ?_⟩
      · conv_lhs => rw [← List.takeWhile_append_dropWhile (p := (· = a)) (l := t)]
        congr 1
        rw [List.eq_replicate_iff]
        refine ⟨rfl, ?_⟩
        intro b hb
        have := List.all_takeWhile (p := (decide <| · = a)) (l := t)
        rw [List.all_eq_true] at this
        simpa using this b hb
      · intro hmem
        rw [List.pairwise_cons] at hs
        cases hd : t.dropWhile (· = a) with
        | nil => rw [hd] at hmem; simp at hmem
        | cons x xs =>
          have hx : ¬ (decide (x = a)) = true := by
            have := List.head_dropWhile_not (l := t) (· = a) (by rw [hd]; simp)
            simpa [hd] using this
          have hxne : x ≠ a := by simpa using hx
          have hsub : (x :: xs).Sublist t := hd ▸ List.dropWhile_sublist _
          have hx1 : x ≤ a := hs.1 x (hsub.subset (by simp))
          rw [hd] at hmem
          have hax : a ≤ x := by
            rcases List.mem_cons.mp hmem with h | h
            · exact h.le
            · have := hs.2.sublist hsub
              exact (List.pairwise_cons.mp this).1 a h
          omega
    have hblock : a :: t = List.replicate (c + 1) a ++ l' := by
      rw [hl]; rfl
    have hlen : n = c + 1 + l'.length := by rw [← hn, hblock]; simp
    have hs' : l'.Pairwise (· ≥ ·) := by
      rw [hblock] at hs
      exact (List.pairwise_append.mp hs).2.1
    obtain ⟨h1, h2, h3, h4⟩ := ih l'.length (by omega) l' hs' rfl
    obtain ⟨e1, e2⟩ := newKeys_block (c + 1) a l' (by omega) hal
    rw [hblock, e1, e2]
    have gk1 : ∀ i, i < c + 1 → (List.replicate (c + 1) 0 ++ (newKeys l').map (· + 1)).getD i 0 = 0 := by
      intro i hi
      rw [List.getD_eq_getElem?_getD, List.getElem?_append_left (by simpa using hi),
        List.getElem?_replicate, if_pos hi]
      rfl
    have gk2 : ∀ i, i < l'.length → (List.replicate (c + 1) 0 ++ (newKeys l').map (· + 1)).getD (c + 1 + i) 0
        = (newKeys l').getD i 0 + 1 := by
      intro i hi
      rw [List.getD_eq_getElem?_getD, List.getElem?_append_right (by simp)]
      simp only [List.length_replicate, Nat.add_sub_cancel_left, List.getElem?_map]
      rw [List.getElem?_eq_getElem (by omega), List.getD_eq_getElem?_getD,
        List.getElem?_eq_getElem (by omega)]
      rfl
    have gl1 : ∀ i, i < c + 1 → (List.replicate (c + 1) a ++ l').getD i 0 = a := by
      intro i hi
      rw [List.getD_eq_getElem?_getD, List.getElem?_append_left (by simpa using hi),
        List.getElem?_replicate, if_pos hi]
      rfl
    have gl2 : ∀ i, (List.replicate (c + 1) a ++ l').getD (c + 1 + i) 0 = l'.getD i 0 := by
      intro i
      rw [List.getD_eq_getElem?_getD, List.getElem?_append_right (by simp)]
      simp
    have gl3 : ∀ i, i < l'.length → l'.getD i 0 ≠ a := by
      intro i hi h
      rw [List.getD_eq_getElem?_getD, List.getElem?_eq_getElem hi] at h
      exact hal (h ▸ List.getElem_mem hi)
    have split : ∀ i, i < n → i < c + 1 ∨ ∃ i', i' < l'.length ∧ i = c + 1 + i' := by
      intro i hi
      rcases Nat.lt_or_ge i (c + 1) with h | h
      · exact Or.inl h
      · exact Or.inr ⟨i - (c + 1), by omega, by omega⟩
    refine ⟨by simp [h1, hlen], ?_, ?_, ?_⟩
    · intro i j hi hj
      rcases split i hi with hi' | ⟨i, hi', rfl⟩ <;> rcases split j hj with hj' | ⟨j, hj', rfl⟩ <;>
        clear hi hj <;> rename' hi' => hi, hj' => hj
      · rw [gk1 i hi, gk1 j hj, gl1 i hi, gl1 j hj]; simp
      · rw [gk1 i hi, gk2 j hj, gl1 i hi, gl2 j]
        constructor
        · intro h; omega
        · intro h; exact absurd h.symm (gl3 j hj)
      · rw [gk2 i hi, gk1 j hj, gl2 i, gl1 j hj]
        constructor
        · intro h; omega
        · intro h; exact absurd h (gl3 i hi)
      · rw [gk2 i hi, gk2 j hj, gl2 i, gl2 j, ← h2 i j hi hj]
        omega
    · intro i hi
      rcases split i hi with hi' | ⟨i, hi', rfl⟩ <;> clear hi <;> rename' hi' => hi
      · rw [gk1 i hi]; omega
      · rw [gk2 i hi]; have := h3 i hi; omega
    · intro s hs
      cases s with
      | zero => exact ⟨0, by omega, gk1 0 (by omega)⟩
      | succ s =>
        obtain ⟨i, hi, he⟩ := h4 s (by omega)
        exact ⟨c + 1 + i, by omega, by rw [gk2 i hi, he]⟩

end PC

namespace PC

section
variable {K : Type*} [Field K] [LinearOrder K] [IsStrictOrderedRing K] [FloorRing K] {k : ℕ}

/-! ### neighbour slices -/

theorem mem_take_drop {β : Type*} (l : List β) (a b : ℕ) (x : β) :
    x ∈ (l.drop a).take (b - a) ↔ ∃ j : Fin l.length, a ≤ j.val ∧ j.val < b ∧ l.get j = x := by
  rw [List.mem_iff_getElem?]
  constructor
  · rintro ⟨i, hi⟩
    rw [List.getElem?_take] at hi
    split at hi
    · rename_i hlt
      rw [List.getElem?_drop, List.getElem?_eq_some_iff] at hi
      obtain ⟨h, hx⟩ := hi
      exact ⟨⟨a + i, h⟩, by simp, by simp; omega, hx⟩
    · simp at hi
  · rintro ⟨j, h1, h2, h3⟩
    refine ⟨j.val - a, ?_⟩
    rw [List.getElem?_take, if_pos (by omega), List.getElem?_drop, List.getElem?_eq_some_iff]
    refine ⟨by have := j.isLt; omega, ?_⟩
    rw [← h3]
    simp only [List.get_eq_getElem]
    congr 1
    omega

theorem mem_slice (h : Nbh k K) (hd : RangesDelimit h.nb.ranges h.nb.pairs) (c : Fin h.sample.n)
    (q : Fin h.g.c.n) : q ∈ h.slice c.val ↔ (q, c) ∈ h.nb.pairs := by
  obtain ⟨hlen, _, _, hiff⟩ := hd
  unfold Nbh.slice
  dsimp only
  have e0 : (0 :: h.nb.ranges).getD c.val 0 = if c.val = 0 then 0 else h.nb.ranges.getD (c.val - 1) 0 := by
    cases hc : c.val with
    | zero => simp
    | succ m => simp
  have e1 : (0 :: h.nb.ranges).getD (c.val + 1) 0 = h.nb.ranges.getD c.val 0 := by simp
  rw [e0, e1]
  simp only [List.mem_map, mem_take_drop]
  constructor
  · rintro ⟨x, ⟨j, h1, h2, rfl⟩, rfl⟩
    have := (hiff c j).mp ⟨h1, h2⟩
    rw [← this]
    exact List.get_mem _ _
  · intro hm
    obtain ⟨j, hj⟩ := List.mem_iff_get.mp hm
    have := (hiff c j).mpr (by rw [hj])
    exact ⟨(q, c), ⟨j, this.1, this.2, hj⟩, rfl⟩

/-- Sorted points `q`, `c` are neighbours. -/
def Near (h : Nbh k K) (q c : Fin h.g.c.n) : Prop :=
  h.g.sortedBatch q = h.g.sortedBatch c ∧
    normLt (fun d => h.g.sortedPts q d - h.g.sortedPts c d) (h.radii 0)

theorem near_symm (h : Nbh k K) {q c : Fin h.g.c.n} (hn : Near h q c) : Near h c q :=
  ⟨hn.1.symm, (normLt_symm _ _ _).mp hn.2⟩

theorem near_refl (h : Nbh k K) (hr : 0 < h.radii 0) (q : Fin h.g.c.n) : Near h q q := by
  refine ⟨rfl, hr, ?_⟩
  simp only [sub_self, mul_zero, Finset.sum_const_zero]
  exact mul_pos hr hr

/-- The slices of a self neighbourhood are the neighbours. -/
theorem slice_self {dev : Device} {g : Grid (k + 2) K} {radii : Fin (k + 2) → K} {h : Nbh k K}
    (hnew : Nbh.new dev g radii none = .ok h) (hreg : Regular h) (c q : Fin h.g.c.n) :
    q ∈ h.slice c.val ↔ Near h q c := by
  obtain ⟨e1, e2, e3, e4, hf⟩ := new_pairs hnew
  have hdel := C19_ranges_partition dev h.g h.sample h.radii h.nb hf
  obtain ⟨g', radii', sample', eq', nb'⟩ := h
  simp only [Option.getD_none] at e1 e2 e3 e4
  subst e1 e2 e3 e4
  have h1 := C16_search_sound dev _ _ _ _ hf
  have h2 := C17_search_complete dev _ _ _ hreg.valid hreg.radius_pos hreg.radius_min hreg.cells
    hreg.eps_pos _ hf
  refine (mem_slice _ hdel c q).trans ?_
  constructor
  · intro h; exact h1.1 _ _ h
  · intro h; exact h2 _ _ h

/-- Invariant of the sampling loop. -/
theorem poisson_invariant {h : Nbh k K} (hr : 0 < h.radii 0)
    (hsl : ∀ c q : Fin h.g.c.n, q ∈ h.slice c.val ↔ Near h q c) {s : PState h}
    (hs : PoissonReach h s) :
    (∀ q, q ∈ s.1 ↔ ∀ c ∈ s.2, ¬ Near h q c) ∧ s.2.Pairwise (fun a b => ¬ Near h b a) ∧
      s.2.Nodup ∧ s.2.length + s.1.card ≤ h.g.c.n := by
  induction hs with
  | refl => simp [poissonInit]
  | tail _ hstep ih =>
    cases hstep with
    | step alive out c hc =>
      obtain ⟨i1, i2, i3, i4⟩ := ih
      simp only at i1 i2 i3 i4 ⊢
      have hnear := (i1 c).mp hc
      refine ⟨?_, ?_, ?_, ?_⟩
      · intro q
        simp only [Finset.mem_sdiff, List.mem_toFinset, hsl, List.mem_append, List.mem_singleton]
        rw [i1]
        constructor
        · rintro ⟨ha, hb⟩ c' (hc' | rfl)
          · exact ha c' hc'
          · exact hb
        · intro ha
          exact ⟨fun c' hc' => ha c' (Or.inl hc'), ha c (Or.inr rfl)⟩
      · rw [List.pairwise_append]
        refine ⟨i2, by simp, ?_⟩
        intro a ha b hb
        simp only [List.mem_singleton] at hb
        subst hb
        exact hnear a ha
      · rw [List.nodup_append]
        refine ⟨i3, by simp, ?_⟩
        intro a ha b hb hab
        simp only [List.mem_singleton] at hb
        subst hb hab
        exact hnear a ha (near_refl h hr a)
      · have hmem : c ∈ (h.slice c.val).toFinset := by
          simp only [List.mem_toFinset, hsl]
          exact near_refl h hr c
        have : (alive \ (h.slice c.val).toFinset).card < alive.card := by
          apply Finset.card_lt_card
          rw [Finset.ssubset_iff_of_subset Finset.sdiff_subset]
          exact ⟨c, hc, by simp [hmem]⟩
        simp only [List.length_append, List.length_singleton]
        omega

/-- What a self neighbourhood guarantees for all positive cell sizes (also
different ones per dimension): each point is its own neighbour, and neighbours
are in the same batch element. -/
theorem slice_self_weak {dev : Device} {g : Grid (k + 2) K} {radii : Fin (k + 2) → K} {h : Nbh k K}
    (hnew : Nbh.new dev g radii none = .ok h) (hv : g.c.Valid) (hcs : g.cs = radii)
    (hpos : ∀ d, 0 < radii d) (heps : 0 < g.eps) :
    (∀ c : Fin h.g.c.n, c ∈ h.slice c.val) ∧
    ∀ c q : Fin h.g.c.n, q ∈ h.slice c.val → h.g.sortedBatch q = h.g.sortedBatch c := by
  obtain ⟨e1, e2, e3, e4, hf⟩ := new_pairs hnew
  have hdel := C19_ranges_partition dev h.g h.sample h.radii h.nb hf
  obtain ⟨g', radii', sample', eq', nb'⟩ := h
  simp only [Option.getD_none] at e1 e2 e3 e4
  subst e1 e2 e3 e4
  have h1 := C16_search_sound dev _ _ _ _ hf
  subst hcs
  constructor
  · intro c
    refine (mem_slice _ hdel c c).mpr ?_
    apply complete_of_close dev _ _ _ hv hpos heps rfl rfl _ hf c c
    · refine ⟨rfl, hpos 0, ?_⟩
      simp only [Grid.sortedCloud, sub_self, mul_zero, Finset.sum_const_zero]
      exact mul_pos (hpos 0) (hpos 0)
    · simp only [Grid.sortedCloud, sub_self, abs_zero]
      exact hpos 1
  · intro c q hq
    exact (h1.1 _ _ ((mem_slice _ hdel c q).mp hq)).1

/-- Invariant of the sampling loop under these guarantees. -/
theorem poisson_invariant_weak {h : Nbh k K}
    (hself : ∀ c : Fin h.g.c.n, c ∈ h.slice c.val)
    (hbatch : ∀ c q : Fin h.g.c.n, q ∈ h.slice c.val → h.g.sortedBatch q = h.g.sortedBatch c)
    {s : PState h} (hs : PoissonReach h s) :
    s.2.Nodup ∧ (∀ c ∈ s.2, c ∉ s.1) ∧
      (∀ q, q ∉ s.1 → ∃ c ∈ s.2, h.g.sortedBatch q = h.g.sortedBatch c) ∧
      s.2.length + s.1.card ≤ h.g.c.n := by
  induction hs with
  | refl => simp [poissonInit]
  | tail _ hstep ih =>
    cases hstep with
    | step alive out c hc =>
      obtain ⟨i1, i2, i3, i4⟩ := ih
      simp only at i1 i2 i3 i4 ⊢
      have hmem : c ∈ (h.slice c.val).toFinset := by simpa using hself c
      refine ⟨?_, ?_, ?_, ?_⟩
      · rw [List.nodup_append]
        refine ⟨i1, by simp, ?_⟩
        intro a ha b hb hab
        simp only [List.mem_singleton] at hb
        subst hb hab
        exact i2 a ha hc
      · intro a ha
        simp only [Finset.mem_sdiff, not_and, not_not]
        intro ha'
        rcases List.mem_append.mp ha with h1 | h1
        · exact absurd ha' (i2 a h1)
        · simp only [List.mem_singleton] at h1
          subst h1; exact hmem
      · intro q hq
        simp only [Finset.mem_sdiff, not_and, not_not] at hq
        by_cases hqa : q ∈ alive
        · exact ⟨c, by simp, hbatch c q (by simpa using hq hqa)⟩
        · obtain ⟨c', hc', hb⟩ := i3 q hqa
          exact ⟨c', by simp [hc'], hb⟩
      · have : (alive \ (h.slice c.val).toFinset).card < alive.card := by
          apply Finset.card_lt_card
          rw [Finset.ssubset_iff_of_subset Finset.sdiff_subset]
          exact ⟨c, hc, by simp [hself c]⟩
        simp only [List.length_append, List.length_singleton]
        omega

end
end PC
