import Verif.Props.Neighbors

/-!
# Properties C20–C23: original indices, brute-force search, transposition
-/

set_option linter.unusedVariables false
set_option linter.unusedSectionVars false

namespace PC

section
variable {K : Type*} [Field K] [LinearOrder K] [IsStrictOrderedRing K] [FloorRing K] {k : ℕ}

/-- A neighbourhood object was obtained from a grid whose cell sizes are the
radii, with the margin `eps > 0` (the situation of all uses in the library). -/
structure Regular (h : Nbh k K) : Prop where
  valid : h.g.c.Valid
  radius_pos : 0 < h.radii 0
  radius_min : ∀ d, h.radii 0 ≤ h.radii d
  cells : h.g.cs = h.radii
  eps_pos : 0 < h.g.eps

theorem new_pairs {dev : Device} {g : Grid (k + 2) K} {radii : Fin (k + 2) → K}
    {s : Option (Cloud (Fin (k + 2) → K))} {h : Nbh k K} (hnew : Nbh.new dev g radii s = .ok h) :
    h.g = g ∧ h.radii = radii ∧ h.sample = s.getD g.sortedCloud ∧ h.equalSamples = s.isNone ∧
      findNeighbors dev h.g h.sample h.radii = .ok h.nb := by
  unfold Nbh.new at hnew
  cases s with
  | some s =>
    dsimp only at hnew
    split at hnew
    · simp at hnew
    · rename_i nb hnb
      simp only [Except.ok.injEq] at hnew
      subst hnew
      exact ⟨rfl, rfl, rfl, rfl, hnb⟩
  | none =>
    dsimp only at hnew
    split at hnew
    · simp at hnew
    · rename_i nb hnb
      simp only [Except.ok.injEq] at hnew
      subst hnew
      exact ⟨rfl, rfl, rfl, rfl, hnb⟩

theorem mem_originalNeighIds (h : Nbh k K) (p : Fin h.g.c.n) (i : Fin h.sample.n) :
    (p, i) ∈ h.originalNeighIds ↔ (h.g.perm.symm p, i) ∈ h.nb.pairs := by
  unfold Nbh.originalNeighIds
  simp only [List.mem_map, Prod.mk.injEq, Prod.exists]
  constructor
  · rintro ⟨q, i', hq, rfl, rfl⟩
    simpa using hq
  · intro hq
    exact ⟨_, _, hq, by simp, rfl⟩

/-! ## C20 -/

/-- **C20.** Every original neighbour id refers to the input cloud: the pair
`(p, i)` in `_original_neigh_ids` satisfies the neighbour conditions for point
`p` *of the input cloud*; nothing is listed twice; and under the usual
parameters every neighbour is listed. -/
theorem C20_original_ids (dev : Device) (g : Grid (k + 2) K) (radii : Fin (k + 2) → K)
    (s : Option (Cloud (Fin (k + 2) → K))) (h : Nbh k K) (hnew : Nbh.new dev g radii s = .ok h) :
    (∀ p i, (p, i) ∈ h.originalNeighIds → IsNeighbor h.g.c h.sample (h.radii 0) p i) ∧
    h.originalNeighIds.Nodup ∧
    (Regular h → ∀ p i, IsNeighbor h.g.c h.sample (h.radii 0) p i → (p, i) ∈ h.originalNeighIds) := by
  obtain ⟨_, _, _, _, hf⟩ := new_pairs hnew
  have hs := C16_search_sound dev h.g h.sample h.radii h.nb hf
  refine ⟨?_, ?_, ?_⟩
  · intro p i hp
    rw [mem_originalNeighIds] at hp
    have := hs.1 _ _ hp
    unfold IsNeighbor at this ⊢
    simpa [Grid.sortedCloud, Grid.sortedBatch, Grid.sortedPts] using this
  · unfold Nbh.originalNeighIds
    apply hs.2.map
    rintro ⟨a, b⟩ ⟨c, d⟩ h
    simp only [Prod.mk.injEq] at h
    obtain ⟨h1, rfl⟩ := h
    rw [h.g.perm.injective h1]
  · intro hreg p i hp
    rw [mem_originalNeighIds]
    apply C17_search_complete dev h.g h.sample h.radii hreg.valid hreg.radius_pos hreg.radius_min
      hreg.cells hreg.eps_pos h.nb hf
    unfold IsNeighbor at hp ⊢
    simpa [Grid.sortedCloud, Grid.sortedBatch, Grid.sortedPts] using hp

/-- C20 for `compute_neighborhoods`: sorted ids and original ids describe the
same pairs through the grid's permutation. -/
theorem C20_compute_neighborhoods (dev : Device) (g : Grid (k + 2) K) (radii : Fin (k + 2) → K)
    (ctr : Cloud (Fin (k + 2) → K)) (l l' : List (Fin g.c.n × Fin ctr.n))
    (h1 : computeNeighborhoods dev g radii ctr true = .ok l)
    (h2 : computeNeighborhoods dev g radii ctr false = .ok l') :
    l.length = l'.length ∧ (∀ q i, (q, i) ∈ l ↔ (g.perm q, i) ∈ l') ∧
    ∀ p i, (p, i) ∈ l' → IsNeighbor g.c ctr (radii 0) p i := by
  unfold computeNeighborhoods at h1 h2
  cases hf : findNeighbors dev g ctr radii with
  | error e => rw [hf] at h1; simp at h1
  | ok nb =>
    rw [hf] at h1 h2
    simp only [if_true, Bool.false_eq_true, if_false, Except.ok.injEq] at h1 h2
    subst h1 h2
    have hs := C16_search_sound dev g ctr radii nb hf
    refine ⟨by simp, ?_, ?_⟩
    · intro q i
      simp
    · intro p i hp
      simp only [List.mem_map, Prod.mk.injEq, Prod.exists] at hp
      obtain ⟨q, i', hq, rfl, rfl⟩ := hp
      exact hs.1 _ _ hq

/-! ## C21 -/

section Brute
variable {K : Type*} [Field K] [LinearOrder K] {D : ℕ}

/-- **C21.** The brute-force search lists exactly the pairs of one batch element
with distance at most the radius, once each, ordered by centre, then point. -/
theorem C21_brute_force_exact (c ctr : Cloud (Fin D → K)) (radius : K) :
    (∀ p i, (p, i) ∈ (findNeighborsNoGrid c ctr radius).2 ↔
      c.batch p = ctr.batch i ∧ normLe (fun d => c.pts p d - ctr.pts i d) radius) ∧
    (findNeighborsNoGrid c ctr radius).2.Pairwise
      (fun a b => a.2 < b.2 ∨ (a.2 = b.2 ∧ a.1 < b.1)) := by
  constructor
  · intro p i
    simp only [findNeighborsNoGrid, List.mem_flatMap, List.mem_finRange, true_and, List.mem_map,
      List.mem_filter, decide_eq_true_eq, Prod.mk.injEq]
    constructor
    · rintro ⟨i', p', hp, rfl, rfl⟩; exact hp
    · intro h; exact ⟨i, p, h, rfl, rfl⟩
  · simp only [findNeighborsNoGrid]
    rw [List.pairwise_flatMap]
    constructor
    · intro i _
      rw [List.pairwise_map]
      refine List.Pairwise.filter _ ?_
      exact (List.pairwise_lt_finRange _).imp (fun h => Or.inr ⟨rfl, h⟩)
    · refine (List.pairwise_lt_finRange _).imp ?_
      intro i j hij x hx y hy
      simp only [List.mem_map] at hx hy
      obtain ⟨_, _, rfl⟩ := hx
      obtain ⟨_, _, rfl⟩ := hy
      exact Or.inl hij

/-! ## C22 -/

/-- **C22, negation.** A centre without neighbours gets the most negative
integer (`none`) as end of its range, so the documented slice is wrong for it
and for its successor. -/
theorem C22_ranges_false :
    ∃ (c ctr : Cloud (Fin 1 → ℚ)), (findNeighborsNoGrid c ctr 1).1 = [some 1, none, some 2] ∧
      (findNeighborsNoGrid c ctr 1).2.map (fun p => (p.1.val, p.2.val)) = [(0, 0), (1, 2)] := by
  refine ⟨⟨2, ![![0], ![9]], ![0, 0], 1⟩, ⟨3, ![![0], ![5], ![9]], ![0, 0, 0], 1⟩, ?_, ?_⟩
  · decide +kernel
  · decide +kernel

/-- End positions computed by a segment maximum over a pair list. -/
theorem segEnd_spec {n m : ℕ} (l : List (Fin n × Fin m))
    (hs : l.Pairwise (fun a b => a.2 ≤ b.2)) (i : Fin m) :
    (segMax (fun j : Fin l.length => j.val + 1) (fun j => (l.get j).2.val) i.val = none ∧
      ∀ j : Fin l.length, (l.get j).2 ≠ i) ∨
    ∃ s e, segMax (fun j : Fin l.length => j.val + 1) (fun j => (l.get j).2.val) i.val = some e ∧
      s < e ∧ e ≤ l.length ∧ ∀ j : Fin l.length, (s ≤ j.val ∧ j.val < e) ↔ (l.get j).2 = i := by
  have hmono : ∀ j j' : Fin l.length, j ≤ j' → (l.get j).2 ≤ (l.get j').2 := by
    intro j j' h
    rcases eq_or_lt_of_le h with rfl | h
    · exact le_rfl
    · exact List.pairwise_iff_get.mp hs j j' h
  cases hM : segMax (fun j : Fin l.length => j.val + 1) (fun j => (l.get j).2.val) i.val with
  | none =>
    left
    rw [segMax_eq_none] at hM
    refine ⟨rfl, fun j hj => hM j (by rw [hj])⟩
  | some e =>
    right
    rw [segMax_eq_some] at hM
    obtain ⟨⟨j1, hj1, he⟩, hle⟩ := hM
    cases hm : segMin (fun j : Fin l.length => j.val) (fun j => (l.get j).2.val) i.val with
    | none =>
      rw [segMin_eq_none] at hm
      exact absurd hj1 (hm j1)
    | some s =>
      rw [segMin_eq_some] at hm
      obtain ⟨⟨j0, hj0, hs0⟩, hge⟩ := hm
      refine ⟨s, e, rfl, ?_, ?_, ?_⟩
      · have := hge j1 hj1; omega
      · have := j1.isLt; omega
      · intro j
        constructor
        · rintro ⟨a, b⟩
          have h1 := hmono j0 j (by rw [Fin.le_def]; omega)
          have h2 := hmono j j1 (by rw [Fin.le_def]; omega)
          rw [Fin.le_def] at h1 h2
          apply Fin.ext
          omega
        · intro hj
          have h1 := hge j (by rw [hj])
          have h2 := hle j (by rw [hj])
          exact ⟨h1, by omega⟩

/-- If every centre occurs, the segment maxima delimit the pair list. -/
theorem segEnds_delimit {n m : ℕ} (l : List (Fin n × Fin m))
    (hs : l.Pairwise (fun a b => a.2 ≤ b.2)) (hocc : ∀ i : Fin m, ∃ j : Fin l.length, (l.get j).2 = i) :
    ∃ ends : List ℕ, (List.finRange m).map (fun i => segMax (fun j : Fin l.length => j.val + 1)
        (fun j => (l.get j).2.val) i.val) = ends.map some ∧ RangesDelimit ends l := by
  have hmono : ∀ j j' : Fin l.length, j ≤ j' → (l.get j).2 ≤ (l.get j').2 := by
    intro j j' h
    rcases eq_or_lt_of_le h with rfl | h
    · exact le_rfl
    · exact List.pairwise_iff_get.mp hs j j' h
  have hsp : ∀ i : Fin m, ∃ s e, segMax (fun j : Fin l.length => j.val + 1)
      (fun j => (l.get j).2.val) i.val = some e ∧
      s < e ∧ e ≤ l.length ∧ ∀ j : Fin l.length, (s ≤ j.val ∧ j.val < e) ↔ (l.get j).2 = i := by
    intro i
    rcases segEnd_spec l hs i with ⟨_, h⟩ | h
    · obtain ⟨j, hj⟩ := hocc i; exact absurd hj (h j)
    · exact h
  choose s e he hse hel hiff using hsp
  have hlt : ∀ i i' : Fin m, i < i' → e i ≤ s i' := by
    intro i i' h
    by_contra hc
    have hc : s i' < e i := by omega
    have hj : s i' < l.length := by have := hse i'; have := hel i'; omega
    have h1 := (hiff i' ⟨s i', hj⟩).mp ⟨le_rfl, hse i'⟩
    have hj2 : e i - 1 < l.length := by have := hel i; have := hse i; omega
    have h2 := (hiff i ⟨e i - 1, hj2⟩).mp ⟨by have := hse i; simp; omega, by have := hse i; simp; omega⟩
    have := hmono ⟨s i', hj⟩ ⟨e i - 1, hj2⟩ (by rw [Fin.le_def]; simp; omega)
    rw [h1, h2] at this
    omega
  have hget : ∀ i : Fin m, ((List.finRange m).map e).getD i.val 0 = e i := by
    intro i
    rw [List.getD_eq_getElem?_getD, List.getElem?_eq_getElem (by simp)]
    simp
  refine ⟨(List.finRange m).map e, ?_, ?_, ?_, ?_, ?_⟩
  · rw [List.map_map]
    apply List.map_congr_left
    intro i _
    exact he i
  · simp
  · rw [List.pairwise_map]
    refine (List.pairwise_lt_finRange m).imp ?_
    intro a b hab
    have := hlt a b hab
    have := hse b
    omega
  · cases m with
    | zero =>
      cases l with
      | nil => simp
      | cons a l => exact a.2.elim0
    | succ m =>
      rw [List.getLastD_eq_getLast?, List.getLast?_eq_getElem?]
      simp only [List.length_map, List.length_finRange, Nat.add_sub_cancel, List.getElem?_map]
      rw [List.getElem?_eq_getElem (by simp)]
      simp only [List.getElem_finRange, Fin.cast_mk, Option.map_some, Option.getD_some]
      apply le_antisymm (hel _)
      by_contra hc
      have hj : l.length - 1 < l.length := by omega
      have hc' : e ⟨m, by omega⟩ < l.length := by omega
      have hne : (l.get ⟨l.length - 1, hj⟩).2 ≠ ⟨m, by omega⟩ := by
        intro h
        have := ((hiff _ _).mpr h).2
        simp only at this
        omega
      obtain ⟨j, hj'⟩ := hocc ⟨m, by omega⟩
      have := hmono j ⟨l.length - 1, hj⟩ (by rw [Fin.le_def]; have := j.isLt; simp; omega)
      rw [hj', Fin.le_def] at this
      apply hne
      apply Fin.ext
      have := (l.get ⟨l.length - 1, hj⟩).2.isLt
      simp only at *
      omega
  · intro i j
    rw [hget, ← hiff i j]
    constructor
    · rintro ⟨a, b⟩
      refine ⟨?_, b⟩
      by_contra hc
      have hc : j.val < s i := by omega
      have hji : (l.get j).2 < i := by
        have h1 := hmono j ⟨s i, by have := hse i; have := hel i; omega⟩ (by rw [Fin.le_def]; simp; omega)
        rw [(hiff i ⟨s i, by have := hse i; have := hel i; omega⟩).mp ⟨le_rfl, hse i⟩] at h1
        rcases lt_or_eq_of_le h1 with h | h
        · exact h
        · have := ((hiff i j).mpr h).1; omega
      have h0 : i.val ≠ 0 := by rw [Fin.lt_def] at hji; omega
      rw [if_neg h0] at a
      rw [hget ⟨i.val - 1, by omega⟩] at a
      have h2 := ((hiff _ j).mpr rfl).2
      rcases Nat.lt_or_ge (l.get j).2.val (i.val - 1) with h | h
      · have := hlt (l.get j).2 ⟨i.val - 1, by omega⟩ h
        have := hse ⟨i.val - 1, by omega⟩
        omega
      · have : (l.get j).2 = ⟨i.val - 1, by omega⟩ := by
          apply Fin.ext; rw [Fin.lt_def] at hji; simp only; omega
        rw [this] at h2
        omega
    · rintro ⟨a, b⟩
      refine ⟨?_, b⟩
      split
      · omega
      · rename_i h0
        rw [hget ⟨i.val - 1, by omega⟩]
        have := hlt ⟨i.val - 1, by omega⟩ i (by rw [Fin.lt_def]; simp only; omega)
        omega

theorem noGrid_sorted (c ctr : Cloud (Fin D → K)) (radius : K) :
    (findNeighborsNoGrid c ctr radius).2.Pairwise (fun a b => a.2 ≤ b.2) :=
  (C21_brute_force_exact c ctr radius).2.imp (by
    rintro a b (h | h)
    · exact h.le
    · exact h.1.le)

/-- **C22, what holds.** (1) If every centre has a neighbour the ranges delimit
the pair list as documented.  (2) In general the range of a centre with
neighbours is the end of the block of its neighbours, and the others hold
`none` (the most negative integer).  Missing: centres without neighbours,
where the documented slice is wrong. -/
theorem C22_ranges_partial (c ctr : Cloud (Fin D → K)) (radius : K) :
    ((∀ i : Fin ctr.n, ∃ p : Fin c.n,
        c.batch p = ctr.batch i ∧ normLe (fun d => c.pts p d - ctr.pts i d) radius) →
      ∃ ends : List ℕ, (findNeighborsNoGrid c ctr radius).1 = ends.map some ∧
        RangesDelimit ends (findNeighborsNoGrid c ctr radius).2) ∧
    (∀ i : Fin ctr.n, ∃ v, (findNeighborsNoGrid c ctr radius).1[i.val]? = some v ∧
      ((v = none ∧ ∀ p, (p, i) ∉ (findNeighborsNoGrid c ctr radius).2) ∨
       ∃ s e, v = some e ∧ s < e ∧ e ≤ (findNeighborsNoGrid c ctr radius).2.length ∧
        ∀ j : Fin (findNeighborsNoGrid c ctr radius).2.length,
          (s ≤ j.val ∧ j.val < e) ↔ ((findNeighborsNoGrid c ctr radius).2.get j).2 = i)) := by
  constructor
  · intro hall
    refine segEnds_delimit _ (noGrid_sorted c ctr radius) ?_
    intro i
    obtain ⟨p, hp⟩ := hall i
    have hmem := ((C21_brute_force_exact c ctr radius).1 p i).mpr hp
    obtain ⟨j, hj⟩ := List.mem_iff_get.mp hmem
    exact ⟨j, congrArg Prod.snd hj⟩
  · intro i
    refine ⟨segMax (fun j : Fin (findNeighborsNoGrid c ctr radius).2.length => j.val + 1)
      (fun j => ((findNeighborsNoGrid c ctr radius).2.get j).2.val) i.val, ?_, ?_⟩
    · have : (findNeighborsNoGrid c ctr radius).1 = (List.finRange ctr.n).map (fun i =>
        segMax (fun j : Fin (findNeighborsNoGrid c ctr radius).2.length => j.val + 1)
          (fun j => ((findNeighborsNoGrid c ctr radius).2.get j).2.val) i.val) := rfl
      rw [this, List.getElem?_map, List.getElem?_eq_getElem (by simp)]
      simp
    · rcases segEnd_spec _ (noGrid_sorted c ctr radius) i with ⟨h1, h2⟩ | h
      · left
        refine ⟨h1, ?_⟩
        intro p hp
        obtain ⟨j, hj⟩ := List.mem_iff_get.mp hp
        exact h2 j (by rw [hj])
      · right
        obtain ⟨s, e, h⟩ := h
        exact ⟨s, e, h⟩

/-- Non-vacuity of C22 (1). -/
example : let c : Cloud (Fin 1 → ℚ) := ⟨3, ![![0], ![1/2], ![9]], ![0, 0, 0], 1⟩
    (∀ i : Fin c.n, ∃ p : Fin c.n, c.batch p = c.batch i ∧
      normLe (fun d => c.pts p d - c.pts i d) 1) ∧
    (findNeighborsNoGrid c c 1).1 = [some 2, some 4, some 5] := by
  refine ⟨by decide +kernel, by decide +kernel⟩

end Brute

/-! ## C23 -/

theorem normLt_symm {D : ℕ} (a b : Fin D → K) (r : K) :
    normLt (fun d => a d - b d) r ↔ normLt (fun d => b d - a d) r := by
  unfold normLt
  have : ∀ d, (a d - b d) * (a d - b d) = (b d - a d) * (b d - a d) := fun d => by ring
  simp only [this]

theorem isNeighbor_symm {D : ℕ} (c c' : Cloud (Fin D → K)) (r : K) (p : Fin c.n) (i : Fin c'.n) :
    IsNeighbor c c' r p i ↔ IsNeighbor c' c r i p := by
  unfold IsNeighbor
  rw [normLt_symm, eq_comm]

/-- **C23, recomputed transposition.** If both searches return, the transposed
neighbourhood lists the pair of indices `(c, p)` exactly when the
neighbourhood lists `(p, c)`, no pair twice. -/
theorem C23_transpose (dev : Device) (g : Grid (k + 2) K) (radii : Fin (k + 2) → K)
    (s : Cloud (Fin (k + 2) → K)) (h ht : Nbh k K) (hnew : Nbh.new dev g radii (some s) = .ok h)
    (hreg : Regular h) (hs : s.Valid) (htr : h.transpose dev = .ok ht) :
    (∀ a b : ℕ, (a, b) ∈ ht.originalNeighIds.map (fun p => (p.1.val, p.2.val)) ↔
      (b, a) ∈ h.originalNeighIds.map (fun p => (p.1.val, p.2.val))) ∧
    ht.originalNeighIds.Nodup := by
  obtain ⟨e1, e2, e3, e4, hf⟩ := new_pairs hnew
  unfold Nbh.transpose at htr
  rw [e4] at htr
  simp only [Option.isNone_some, Bool.false_eq_true, if_false] at htr
  obtain ⟨t1, t2, t3, t4, htf⟩ := new_pairs htr
  have hC := C20_original_ids dev _ _ _ h hnew
  have hT := C20_original_ids dev _ _ _ ht htr
  have hregT : Regular ht := by
    refine ⟨?_, ?_, ?_, ?_, ?_⟩
    · rw [t1]; simp only [e3, Option.getD_some]; exact hs
    · rw [t2]; exact hreg.radius_pos
    · rw [t2]; exact hreg.radius_min
    · rw [t1, t2]
    · rw [t1]; exact hreg.eps_pos
  refine ⟨?_, hT.2.1⟩
  intro a b
  have key : (∃ (p : Fin ht.g.c.n) (i : Fin ht.sample.n), p.val = a ∧ i.val = b ∧
        IsNeighbor ht.g.c ht.sample (ht.radii 0) p i) ↔
      (∃ (p : Fin h.g.c.n) (i : Fin h.sample.n), p.val = b ∧ i.val = a ∧
        IsNeighbor h.g.c h.sample (h.radii 0) p i) := by
    have t3' : ht.sample = h.g.c := t3
    have t1' : ht.g.c = h.sample := by rw [t1]
    rw [t2, t3', t1']
    constructor
    · rintro ⟨p, i, h1, h2, h3⟩; exact ⟨i, p, h2, h1, (isNeighbor_symm _ _ _ _ _).mp h3⟩
    · rintro ⟨p, i, h1, h2, h3⟩; exact ⟨i, p, h2, h1, (isNeighbor_symm _ _ _ _ _).mp h3⟩
  have conv : ∀ (h : Nbh k K), Regular h → ((∀ p i, (p, i) ∈ h.originalNeighIds →
        IsNeighbor h.g.c h.sample (h.radii 0) p i) ∧ h.originalNeighIds.Nodup ∧
      (Regular h → ∀ p i, IsNeighbor h.g.c h.sample (h.radii 0) p i → (p, i) ∈ h.originalNeighIds)) →
      ∀ a b : ℕ, ((a, b) ∈ h.originalNeighIds.map (fun p => (p.1.val, p.2.val)) ↔
      ∃ (p : Fin h.g.c.n) (i : Fin h.sample.n), p.val = a ∧ i.val = b ∧
        IsNeighbor h.g.c h.sample (h.radii 0) p i) := by
    intro h hr hC a b
    simp only [List.mem_map, Prod.mk.injEq, Prod.exists]
    constructor
    · rintro ⟨p, i, hp, rfl, rfl⟩; exact ⟨p, i, rfl, rfl, hC.1 p i hp⟩
    · rintro ⟨p, i, rfl, rfl, hp⟩; exact ⟨p, i, hC.2.2 hr p i hp, rfl, rfl⟩
  rw [conv ht hregT hT, conv h hreg hC, key]

/-- **C23, index-based transposition** (`_NeighborhoodTransposed`), for any
neighbourhood with samples different from the grid's points: its original
pairs are a rearrangement of the swapped pairs, sorted by centre, and its
`_neighbors` are these pairs expressed in the order of the grid on the
samples. -/
theorem C23_transposed_by_index (h : Nbh k K) :
    h.transposedByIndex.1.Perm (h.originalNeighIds.map Prod.swap) ∧
    h.transposedByIndex.1.Pairwise (fun a b => a.2 ≤ b.2) ∧
    h.transposedByIndex.2.1.map (fun p =>
      ((⟨h.sample, h.radii, h.g.eps⟩ : Grid (k + 2) K).perm p.1, p.2)) = h.transposedByIndex.1 := by
  refine ⟨?_, ?_, ?_⟩
  · simp only [Nbh.transposedByIndex]
    refine (Equiv.Perm.ofFn_comp_perm (argsortAsc _) (List.get _)).trans ?_
    rw [List.ofFn_get]
    exact List.Perm.refl _
  · simp only [Nbh.transposedByIndex]
    rw [List.pairwise_ofFn]
    intro a b hab
    exact argsortAsc_le (fun j : Fin (List.map (fun p : Fin h.g.c.n × Fin h.sample.n => (p.2, p.1))
      h.originalNeighIds).length => ((h.originalNeighIds.map (fun p => (p.2, p.1))).get j).2) hab.le
  · simp only [Nbh.transposedByIndex, List.map_map]
    conv_rhs => rw [← List.map_id (List.ofFn _)]
    apply List.map_congr_left
    intro p _
    simp

/-- **C23, ranges of the index-based transposition.** They delimit the centres'
pairs if every point is a neighbour of some sample (see `C22_ranges_false` for
what happens otherwise). -/
theorem C23_transposed_ranges (h : Nbh k K)
    (hall : ∀ p : Fin h.g.c.n, ∃ i, (p, i) ∈ h.originalNeighIds) :
    ∃ ends : List ℕ, h.transposedByIndex.2.2 = ends.map some ∧
      RangesDelimit ends h.transposedByIndex.2.1 := by
  obtain ⟨hp, hs, hm⟩ := C23_transposed_by_index h
  have hs2 : h.transposedByIndex.2.1.Pairwise (fun a b => a.2 ≤ b.2) := by
    rw [← hm, List.pairwise_map] at hs
    exact hs
  refine segEnds_delimit h.transposedByIndex.2.1 hs2 ?_
  intro p
  obtain ⟨i, hi⟩ := hall p
  have h1 : (i, p) ∈ h.transposedByIndex.1 := by
    rw [hp.mem_iff]
    exact List.mem_map.mpr ⟨_, hi, rfl⟩
  rw [← hm] at h1
  obtain ⟨x, hx, hxe⟩ := List.mem_map.mp h1
  obtain ⟨j, hj⟩ := List.mem_iff_get.mp hx
  refine ⟨j, ?_⟩
  rw [hj]
  exact (Prod.mk.inj hxe).2

/-- **C23, self neighbourhood.** Transposing returns the object itself, and its
relation (in the indices of the grid's order, which both columns of
`_neighbors` use) is symmetric. -/
theorem C23_self (dev : Device) (g : Grid (k + 2) K) (radii : Fin (k + 2) → K) (h : Nbh k K)
    (hnew : Nbh.new dev g radii none = .ok h) (hreg : Regular h) :
    h.transpose dev = .ok h ∧
    ∀ a b : ℕ, (a, b) ∈ h.nb.pairs.map (fun p => (p.1.val, p.2.val)) →
      (b, a) ∈ h.nb.pairs.map (fun p => (p.1.val, p.2.val)) := by
  obtain ⟨e1, e2, e3, e4, hf⟩ := new_pairs hnew
  refine ⟨by unfold Nbh.transpose; rw [e4]; rfl, ?_⟩
  obtain ⟨g', radii', sample', eq', nb'⟩ := h
  simp only [Option.getD_none] at e1 e2 e3 e4
  subst e1 e2 e3 e4
  intro a b hab
  simp only [List.mem_map, Prod.mk.injEq, Prod.exists] at hab ⊢
  obtain ⟨p, i, hp, rfl, rfl⟩ := hab
  refine ⟨i, p, ?_, rfl, rfl⟩
  have h1 := (C16_search_sound dev _ _ _ _ hf).1 p i hp
  exact C17_search_complete dev _ _ _ hreg.valid hreg.radius_pos hreg.radius_min hreg.cells
    hreg.eps_pos _ hf i p ((isNeighbor_symm _ _ _ _ _).mp h1)

/-- **C23, negation for `_original_neigh_ids` of a self neighbourhood.** There
the neighbour column holds input indices and the centre column sorted indices,
so the relation need not be symmetric (nor reflexive). -/
theorem C23_self_original_ids_false :
    ∃ (g : Grid 2 ℚ) (radii : Fin 2 → ℚ), g.c.Valid ∧ g.cs = radii ∧ (∀ d, 0 < radii d) ∧
      (Nbh.new .gpu g radii none).map
        (fun h => h.originalNeighIds.map (fun p => (p.1.val, p.2.val))) =
        .ok [(2, 0), (0, 1), (1, 2)] := by
  refine ⟨⟨⟨3, ![![2, 0], ![0, 0], ![4, 0]], ![0, 0, 0], 1⟩, ![1, 1], 1 / 10⟩, ![1, 1], by decide, rfl,
    by decide +kernel, by decide +kernel⟩

/-- Non-vacuity of `C23_transpose`, `C23_transposed_*`, `C20`: the neighbourhood
of the example of C17 and its two transpositions. -/
example : (Nbh.new .gpu exGrid exGrid.cs (some exCenters)).bind (fun h => (h.transpose .gpu).map
      (fun t => (h.originalNeighIds.map (fun p => (p.1.val, p.2.val)),
        t.originalNeighIds.map (fun p => (p.1.val, p.2.val)),
        h.transposedByIndex.1.map (fun p => (p.1.val, p.2.val))))) =
    .ok ([(0, 0), (2, 0), (1, 1), (4, 2)], [(0, 0), (1, 1), (0, 2), (2, 4)],
      [(0, 0), (1, 1), (0, 2), (2, 4)]) := by
  decide +kernel

/-- Non-vacuity of `C23_self` and `C23_transposed_ranges`: the self neighbourhood of
the same grid, and a neighbourhood in which every point has a sample. -/
example : (∀ d, exGrid.cs 0 ≤ exGrid.cs d) ∧
    (Nbh.new .gpu exGrid exGrid.cs none).map (fun h => h.nb.pairs.map (fun p => (p.1.val, p.2.val)))
      = .ok [(0, 0), (1, 1), (2, 2), (3, 3), (4, 3), (3, 4), (4, 4)] ∧
    (Nbh.new .gpu exGrid exGrid.cs (some ⟨4, ![![0, 0], ![2, 0], ![3, 3], ![0, 0]], ![0, 0, 0, 1], 2⟩)).map
      (fun h => (h.originalNeighIds.map (fun p => (p.1.val, p.2.val)), h.transposedByIndex.2.2)) =
      .ok ([(0, 0), (2, 0), (1, 1), (3, 2), (4, 3)], [some 1, some 2, some 3, some 4, some 5]) := by
  refine ⟨by decide +kernel, by decide +kernel, by decide +kernel⟩

end
end PC
