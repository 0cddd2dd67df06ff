import Verif.Neighbors
import Verif.GridLemmas
import Verif.PointCloudLemmas

/-! Helper lemmas about the neighbour search. -/

set_option linter.unusedVariables false
set_option linter.unusedSectionVars false

namespace PC

theorem collect_ok {β : Type*} {l : List (Except Err β)} {r : List β} (h : collect l = .ok r) :
    l = r.map .ok := by
  induction l generalizing r with
  | nil => simp only [collect, Except.ok.injEq] at h; subst h; rfl
  | cons a l ih =>
    cases a with
    | error e => simp [collect] at h
    | ok a =>
      simp only [collect] at h
      split at h
      · rename_i r' hr'
        simp only [Except.ok.injEq] at h
        subst h
        simp [ih hr']
      · simp at h

theorem collect_map_ok {β : Type*} (r : List β) : collect (r.map (Except.ok (ε := Err))) = .ok r := by
  induction r with
  | nil => rfl
  | cons a r ih => simp [collect, ih]

theorem collect_error {β : Type*} {l : List (Except Err β)} {e : Err} (h : .error e ∈ l) :
    ∃ e', collect l = .error e' := by
  induction l with
  | nil => simp at h
  | cons a l ih =>
    cases a with
    | error e0 => exact ⟨e0, rfl⟩
    | ok a =>
      simp only [List.mem_cons, reduceCtorEq, false_or] at h
      obtain ⟨e', he'⟩ := ih h
      exact ⟨e', by simp [collect, he']⟩

theorem min?_getD_le {l : List ℕ} {x : ℕ} (h : x ∈ l) : l.min?.getD 0 ≤ x := by
  cases hm : l.min? with
  | none => rw [List.min?_eq_none_iff] at hm; subst hm; simp at h
  | some m => exact (List.min?_eq_some_iff.mp hm).2 x h

theorem le_max?_getD {l : List ℕ} {x : ℕ} (h : x ∈ l) : x ≤ l.max?.getD 0 := by
  cases hm : l.max? with
  | none => rw [List.max?_eq_none_iff] at hm; subst hm; simp at h
  | some m => exact (List.max?_eq_some_iff.mp hm).2 x h

/-! ### assembling -/

theorem mem_assemble {n m : ℕ} (nbs : List (Fin m × List (Fin n))) (q : Fin n) (i : Fin m) :
    (q, i) ∈ (assemble nbs).pairs ↔ ∃ l, (i, l) ∈ nbs ∧ q ∈ l := by
  simp only [assemble, List.mem_flatMap, List.mem_map, Prod.mk.injEq, Prod.exists]
  constructor
  · rintro ⟨a, l, hal, q', hq', rfl, rfl⟩; exact ⟨l, hal, hq'⟩
  · rintro ⟨l, hil, hq⟩; exact ⟨i, l, hil, q, hq, rfl, rfl⟩

theorem assemble_nodup {n m : ℕ} (nbs : List (Fin m × List (Fin n)))
    (h1 : (nbs.map Prod.fst).Nodup) (h2 : ∀ x ∈ nbs, x.2.Nodup) : (assemble nbs).pairs.Nodup := by
  induction nbs with
  | nil => simp [assemble]
  | cons x nbs ih =>
    simp only [List.map_cons, List.nodup_cons] at h1
    have ih' := ih h1.2 (fun y hy => h2 y (by simp [hy]))
    simp only [assemble, List.flatMap_cons] at ih' ⊢
    rw [List.nodup_append]
    refine ⟨?_, ih', ?_⟩
    · exact (h2 x (by simp)).map (fun a b h => (Prod.mk.inj h).1)
    · intro a ha b hb hab
      subst hab
      simp only [List.mem_map] at ha
      obtain ⟨q, _, rfl⟩ := ha
      simp only [List.mem_flatMap, List.mem_map, Prod.mk.injEq] at hb
      obtain ⟨y, hy, q', _, _, hyx⟩ := hb
      exact h1.1 (List.mem_map.mpr ⟨y, hy, hyx⟩)

theorem findNeighbors_ok {K : Type*} [Field K] [LinearOrder K] [FloorRing K] {k : ℕ}
    {dev : Device} {g : Grid (k + 2) K} {ctr : Cloud (Fin (k + 2) → K)} {radii : Fin (k + 2) → K}
    {r : Pairs g.c.n ctr.n} (h : findNeighbors dev g ctr radii = .ok r) :
    ∃ ds, g.getDS dev = .ok ds ∧ 0 < ctr.n ∧ ∃ nb : Fin ctr.n → List (Fin g.c.n),
      (∀ i, neighborsOf dev g ds (ctr.pts i) (ctr.batch i) radii = .ok (nb i)) ∧
      r = assemble ((List.finRange ctr.n).map (fun i => (i, nb i))) := by
  unfold findNeighbors at h
  split at h
  · simp at h
  · rename_i ds hds
    split at h
    · simp at h
    · rename_i hn
      split at h
      · simp at h
      · rename_i ls hls
        simp only [Except.ok.injEq] at h
        have hl := collect_ok hls
        have hlen : ls.length = ctr.n := by
          have := congrArg List.length hl
          simpa using this.symm
        refine ⟨ds, hds, Nat.pos_of_ne_zero hn,
          fun i => ls[i.val]'(by rw [hlen]; exact i.isLt), ?_, ?_⟩
        · intro i
          have h0 : ((List.finRange ctr.n).map
              (fun i => neighborsOf dev g ds (ctr.pts i) (ctr.batch i) radii))[i.val]'(by simp) =
              (ls.map Except.ok)[i.val]'(by simp [hlen]) := by
            simp only [hl]
          simpa using h0
        · rw [← h]
          congr 1
          apply List.ext_getElem
          · simp [hlen]
          · intro j h1 h2
            simp

theorem mem_pairs {n m : ℕ} (nb : Fin m → List (Fin n)) (q : Fin n) (i : Fin m) :
    (q, i) ∈ (assemble ((List.finRange m).map (fun i => (i, nb i)))).pairs ↔ q ∈ nb i := by
  rw [mem_assemble]
  simp only [List.mem_map, List.mem_finRange, true_and, Prod.mk.injEq]
  constructor
  · rintro ⟨l, ⟨j, rfl, rfl⟩, hq⟩; exact hq
  · intro hq; exact ⟨nb i, ⟨i, rfl, rfl⟩, hq⟩

/-! ### geometry -/

section
variable {K : Type*} [Field K] [LinearOrder K] [IsStrictOrderedRing K] [FloorRing K]

theorem abs_lt_of_normLt {D : ℕ} {v : Fin D → K} {r : K} (h : normLt v r) (d : Fin D) :
    |v d| < r := by
  obtain ⟨hr, hs⟩ := h
  have h1 : v d * v d ≤ ∑ d, v d * v d :=
    Finset.single_le_sum (f := fun d => v d * v d) (fun i _ => mul_self_nonneg _) (Finset.mem_univ d)
  have h2 : |v d| * |v d| < r * r := by rw [abs_mul_abs_self]; exact lt_of_le_of_lt h1 hs
  exact lt_of_mul_self_lt_mul_self₀ hr.le h2

/-- Points closer than one cell have cell coordinates differing by at most 1. -/
theorem floor_close {x y m s : K} (hs : 0 < s) (h : |x - y| < s) :
    ⌊(x - m) / s⌋ ≤ ⌊(y - m) / s⌋ + 1 ∧ ⌊(y - m) / s⌋ ≤ ⌊(x - m) / s⌋ + 1 := by
  rw [abs_lt] at h
  have e : (x - m) / s - (y - m) / s = (x - y) / s := by ring
  have h1 : (x - y) / s < 1 := by rw [div_lt_one hs]; exact h.2
  have h2 : -1 < (x - y) / s := by rw [lt_div_iff₀ hs]; linarith [h.1]
  constructor
  · have : (x - m) / s < (y - m) / s + 1 := by linarith
    have h3 := Int.floor_le_floor this.le
    rwa [Int.floor_add_one] at h3
  · have : (y - m) / s < (x - m) / s + 1 := by linarith
    have h3 := Int.floor_le_floor this.le
    rwa [Int.floor_add_one] at h3

/-- Membership in the examined range. -/
theorem adjRange_covers {k : ℕ} {dev : Device} {g : Grid (k + 2) K} {ds : ℕ → ℕ → ℕ → ℕ × ℕ}
    {p : Fin (k + 2) → K} {b : ℕ} {radii : Fin (k + 2) → K} {s e : ℕ}
    (h : adjRange dev g ds p b radii = .ok (s, e)) (i j : ℕ)
    (hi : i < g.numCells 0) (hj : j < g.numCells 1)
    (h0 : Grid.clampCell (aabbMin g.eps g.c b 0) (p 0) (radii 0) (g.numCells 0) ≤ i + 1 ∧
      i ≤ Grid.clampCell (aabbMin g.eps g.c b 0) (p 0) (radii 0) (g.numCells 0) + 1)
    (h1 : Grid.clampCell (aabbMin g.eps g.c b 1) (p 1) (radii 1) (g.numCells 1) ≤ j + 1 ∧
      j ≤ Grid.clampCell (aabbMin g.eps g.c b 1) (p 1) (radii 1) (g.numCells 1) + 1) :
    s ≤ (ds b i j).1 ∧ (ds b i j).2 ≤ e := by
  unfold adjRange at h
  dsimp only at h
  generalize Grid.clampCell (aabbMin g.eps g.c b 0) (p 0) (radii 0) (g.numCells 0) = c0 at *
  generalize Grid.clampCell (aabbMin g.eps g.c b 1) (p 1) (radii 1) (g.numCells 1) = c1 at *
  split at h
  · simp at h
  · rename_i entries hent
    simp only [Except.ok.injEq, Prod.mk.injEq] at h
    obtain ⟨rfl, rfl⟩ := h
    have hl := collect_ok hent
    have hmem : ds b i j ∈ entries := by
      have hoff : (((i : ℤ) - c0, (j : ℤ) - c1) : ℤ × ℤ) ∈ adjOffsets := by
        have a1 : (i : ℤ) - c0 = -1 ∨ (i : ℤ) - c0 = 0 ∨ (i : ℤ) - c0 = 1 := by omega
        have a2 : (j : ℤ) - c1 = -1 ∨ (j : ℤ) - c1 = 0 ∨ (j : ℤ) - c1 = 1 := by omega
        rcases a1 with a1 | a1 | a1 <;> rcases a2 with a2 | a2 | a2 <;> rw [a1, a2] <;>
          simp [adjOffsets]
      have : (Except.ok (ds b i j) : Except Err (ℕ × ℕ)) ∈ entries.map Except.ok := by
        rw [← hl]
        refine List.mem_map.mpr ⟨_, hoff, ?_⟩
        have e0 : clip ((c0 : ℤ) + ((i : ℤ) - c0)) (g.numCells 0) = i := by
          unfold clip
          have : ((c0 : ℤ) + ((i : ℤ) - c0)).toNat = i := by omega
          rw [this]; omega
        have e1 : clip ((c1 : ℤ) + ((j : ℤ) - c1)) (g.numCells 1) = j := by
          unfold clip
          have : ((c1 : ℤ) + ((j : ℤ) - c1)).toNat = j := by omega
          rw [this]; omega
        simp only [e0, e1]
        unfold gatherDs
        rw [if_pos ⟨hi, hj⟩]
      simpa using this
    exact ⟨min?_getD_le (List.mem_map_of_mem hmem), le_max?_getD (List.mem_map_of_mem hmem)⟩

/-- Clamping keeps neighbouring cells neighbouring. -/
theorem clampCell_close (lo p q s : K) (hi : ℕ) (hs : 0 < s) (hpq : |q - p| < s) (cq : ℕ)
    (hcq : (cq : ℤ) = ⌊(q - lo) / s⌋) (hcq' : cq < hi) :
    Grid.clampCell (some lo) p s hi ≤ cq + 1 ∧ cq ≤ Grid.clampCell (some lo) p s hi + 1 := by
  obtain ⟨h1, h2⟩ := floor_close (m := lo) hs hpq
  rw [← hcq] at h1 h2
  unfold Grid.clampCell
  dsimp only
  omega

end
end PC

namespace PC

theorem assemble_cons {n m : ℕ} (x : Fin m × List (Fin n)) (nbs : List (Fin m × List (Fin n))) :
    (assemble (x :: nbs)).pairs = x.2.map (fun q => (q, x.1)) ++ (assemble nbs).pairs := rfl

theorem assemble_length {n m : ℕ} (nbs : List (Fin m × List (Fin n))) :
    (assemble nbs).pairs.length = (nbs.map (fun x => x.2.length)).sum := by
  induction nbs with
  | nil => rfl
  | cons x nbs ih => rw [assemble_cons]; simp [ih]

/-- Position `j` of the pair list lies in the block of exactly one centre, and
that centre is the one recorded. -/
theorem assemble_block {n m : ℕ} (nbs : List (Fin m × List (Fin n))) (j : ℕ)
    (hj : j < (assemble nbs).pairs.length) :
    ∃ t, ∃ ht : t < nbs.length, ((nbs.map (fun x => x.2.length)).take t).sum ≤ j ∧
      j < ((nbs.map (fun x => x.2.length)).take (t + 1)).sum ∧
      ((assemble nbs).pairs[j]).2 = nbs[t].1 := by
  induction nbs generalizing j with
  | nil => simp [assemble] at hj
  | cons x nbs ih =>
    by_cases hlt : j < x.2.length
    · refine ⟨0, by simp, by simp, by simpa using hlt, ?_⟩
      simp only [assemble_cons]
      rw [List.getElem_append_left (by simpa using hlt)]
      simp
    · have hj' : j - x.2.length < (assemble nbs).pairs.length := by
        rw [assemble_cons] at hj
        simp only [List.length_append, List.length_map] at hj
        omega
      obtain ⟨t, ht, h1, h2, h3⟩ := ih _ hj'
      refine ⟨t + 1, by simpa using ht, ?_, ?_, ?_⟩
      · simp only [List.map_cons, List.take_succ_cons, List.sum_cons]; omega
      · simp only [List.map_cons, List.take_succ_cons, List.sum_cons] at h2 ⊢; omega
      · simp only [assemble_cons, List.getElem_cons_succ]
        rw [List.getElem_append_right (by simp; omega)]
        simpa using h3

theorem take_sum_mono (l : List ℕ) {a b : ℕ} (h : a ≤ b) : (l.take a).sum ≤ (l.take b).sum := by
  induction l generalizing a b with
  | nil => simp
  | cons x l ih =>
    cases a with
    | zero => simp
    | succ a =>
      cases b with
      | zero => omega
      | succ b => simpa using ih (by omega : a ≤ b)

theorem cumEnds_mono (l : List ℕ) (acc : ℕ) : (cumEnds l acc).Pairwise (· ≤ ·) := by
  rw [List.pairwise_iff_getElem]
  intro i j hi hj hij
  rw [cumEnds_getElem, cumEnds_getElem]
  have := take_sum_mono l (show i + 1 ≤ j + 1 by omega)
  omega

theorem cumEnds_getLastD (l : List ℕ) (acc d : ℕ) (h : l = [] → d = acc) :
    (cumEnds l acc).getLastD d = acc + l.sum := by
  induction l generalizing acc d with
  | nil => simp [cumEnds, h]
  | cons a l ih =>
    simp only [cumEnds, List.sum_cons]
    rw [List.getLastD_cons, ih _ _ (fun _ => rfl)]
    omega

end PC
