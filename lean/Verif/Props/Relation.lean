import Verif.Props.Local
import Verif.Props.Pooling

/-!
# C148: how the results of searches with different radii are related

Two searches with different radii use two grids (different cells, different
sorting).  The statements are about the pairs in the numbering of the user
(`_original_neigh_ids`), as natural numbers, so that two objects can be compared.
-/

set_option linter.unusedVariables false
set_option linter.unusedSectionVars false

namespace PC

section
variable {K : Type*} [Field K] [LinearOrder K] [IsStrictOrderedRing K] [FloorRing K] {k : ℕ}

/-- The pairs of a neighbourhood object as numbers `(point, centre)`. -/
def Nbh.found (h : Nbh k K) : List (ℕ × ℕ) := h.originalNeighIds.map (fun p => (p.1.val, p.2.val))

/-- What a search that the library makes finds: exactly the pairs at distance
below the radius. -/
theorem found_iff (dev : Device) (eps : K) (cin cout : Cloud (Fin (k + 2) → K)) (radii : Fin (k + 2) → K)
    (hok : PoolOk cin radii eps) (h : Nbh k K)
    (hnew : Nbh.new dev ⟨cin, radii, eps⟩ radii (some cout) = .ok h) (a b : ℕ) :
    (a, b) ∈ h.found ↔ ∃ (ha : a < cin.n) (hb : b < cout.n), IsNeighbor cin cout (radii 0) ⟨a, ha⟩ ⟨b, hb⟩ := by
  obtain ⟨e1, e2, e3, e4, hf⟩ := new_pairs hnew
  have hC := C20_original_ids dev _ _ _ h hnew
  obtain ⟨g', radii', sample', eq', nb'⟩ := h
  simp only [Option.getD_some] at e1 e2 e3 e4
  subst e1 e2 e3 e4
  have hreg : Regular (⟨⟨cin, radii', eps⟩, radii', sample', (some sample').isNone, nb'⟩ : Nbh k K) :=
    ⟨hok.valid, hok.radius_pos, hok.radius_min, rfl, hok.eps_pos⟩
  unfold Nbh.found
  simp only [List.mem_map, Prod.mk.injEq, Prod.exists]
  constructor
  · rintro ⟨p, i, hp, rfl, rfl⟩
    exact ⟨p.isLt, i.isLt, hC.1 p i hp⟩
  · rintro ⟨ha, hb, hn⟩
    exact ⟨⟨a, ha⟩, ⟨b, hb⟩, hC.2.2 hreg _ _ hn, rfl, rfl⟩

theorem found_nodup (dev : Device) (g : Grid (k + 2) K) (radii : Fin (k + 2) → K)
    (s : Option (Cloud (Fin (k + 2) → K))) (h : Nbh k K) (hnew : Nbh.new dev g radii s = .ok h) :
    h.found.Nodup :=
  (C20_original_ids dev g radii s h hnew).2.1.map (fun p q e => by
    simp only [Prod.mk.injEq] at e
    exact Prod.ext (Fin.ext e.1) (Fin.ext e.2))

/-- **C148, larger radius.** A search with a larger radius, with its own grid, on either device,
finds every pair the search with the smaller one finds, so at least as many. -/
theorem C148_monotone (dev dev' : Device) (eps eps' : K) (cin cout : Cloud (Fin (k + 2) → K))
    (radii radii' : Fin (k + 2) → K) (hok : PoolOk cin radii eps) (hok' : PoolOk cin radii' eps')
    (hle : radii 0 ≤ radii' 0) (h h' : Nbh k K)
    (hnew : Nbh.new dev ⟨cin, radii, eps⟩ radii (some cout) = .ok h)
    (hnew' : Nbh.new dev' ⟨cin, radii', eps'⟩ radii' (some cout) = .ok h') :
    h.found ⊆ h'.found ∧ h.nb.pairs.length ≤ h'.nb.pairs.length := by
  have hs : h.found ⊆ h'.found := by
    rintro ⟨a, b⟩ hab
    rw [found_iff dev eps cin cout radii hok h hnew] at hab
    rw [found_iff dev' eps' cin cout radii' hok' h' hnew']
    obtain ⟨ha, hb, h1, h2⟩ := hab
    exact ⟨ha, hb, h1, normLt_mono hle h2⟩
  refine ⟨hs, ?_⟩
  have := ((found_nodup dev _ _ _ h hnew).subperm hs).length_le
  simpa [Nbh.found, Nbh.originalNeighIds] using this

/-- **C148, the larger search filtered** is the smaller search: exactly the pairs that
were found and lie below the smaller radius. -/
theorem C148_filter (dev dev' : Device) (eps eps' : K) (cin cout : Cloud (Fin (k + 2) → K))
    (radii radii' : Fin (k + 2) → K) (hok : PoolOk cin radii eps) (hok' : PoolOk cin radii' eps')
    (hle : radii 0 ≤ radii' 0) (h h' : Nbh k K)
    (hnew : Nbh.new dev ⟨cin, radii, eps⟩ radii (some cout) = .ok h)
    (hnew' : Nbh.new dev' ⟨cin, radii', eps'⟩ radii' (some cout) = .ok h') (a b : ℕ) :
    (a, b) ∈ h.found ↔ (a, b) ∈ h'.found ∧ ∃ (ha : a < cin.n) (hb : b < cout.n),
      normLt (fun d => cin.pts ⟨a, ha⟩ d - cout.pts ⟨b, hb⟩ d) (radii 0) := by
  rw [found_iff dev eps cin cout radii hok h hnew, found_iff dev' eps' cin cout radii' hok' h' hnew']
  constructor
  · rintro ⟨ha, hb, h1, h2⟩
    exact ⟨⟨ha, hb, h1, normLt_mono hle h2⟩, ha, hb, h2⟩
  · rintro ⟨⟨ha, hb, h1, _⟩, _, _, h2⟩
    exact ⟨ha, hb, h1, h2⟩

/-- **C148, composition.** A point found from a middle point and the middle point found
from a centre: the point is found from the centre by a search with the sum of the radii. -/
theorem C148_compose (dev dev' dev'' : Device) (eps eps' eps'' : K) (x y z : Cloud (Fin (k + 2) → K))
    (r r' r'' : Fin (k + 2) → K) (hok : PoolOk x r eps) (hok' : PoolOk y r' eps') (hok'' : PoolOk x r'' eps'')
    (hle : r 0 + r' 0 ≤ r'' 0) (h h' h'' : Nbh k K)
    (hnew : Nbh.new dev ⟨x, r, eps⟩ r (some y) = .ok h)
    (hnew' : Nbh.new dev' ⟨y, r', eps'⟩ r' (some z) = .ok h')
    (hnew'' : Nbh.new dev'' ⟨x, r'', eps''⟩ r'' (some z) = .ok h'') (a b c : ℕ)
    (hab : (a, b) ∈ h.found) (hbc : (b, c) ∈ h'.found) : (a, c) ∈ h''.found := by
  rw [found_iff dev eps x y r hok h hnew] at hab
  rw [found_iff dev' eps' y z r' hok' h' hnew'] at hbc
  rw [found_iff dev'' eps'' x z r'' hok'' h'' hnew'']
  obtain ⟨ha, hb, h1, h2⟩ := hab
  obtain ⟨_, hc, h3, h4⟩ := hbc
  exact ⟨ha, hc, h1.trans h3, normLt_mono hle (normLt_trans h2 h4)⟩

/-- **C148, separate.** Centres with no common point: if two centres are further apart than the sum of
the radii (or in different elements), no point is found from both. -/
theorem C148_disjoint (dev dev' : Device) (eps eps' : K) (x y : Cloud (Fin (k + 2) → K))
    (r r' : Fin (k + 2) → K) (hok : PoolOk x r eps) (hok' : PoolOk x r' eps') (h h' : Nbh k K)
    (hnew : Nbh.new dev ⟨x, r, eps⟩ r (some y) = .ok h)
    (hnew' : Nbh.new dev' ⟨x, r', eps'⟩ r' (some y) = .ok h') (i j : Fin y.n)
    (hfar : y.batch i ≠ y.batch j ∨ ¬ normLt (fun d => y.pts i d - y.pts j d) (r 0 + r' 0)) (a : ℕ) :
    ¬ ((a, i.val) ∈ h.found ∧ (a, j.val) ∈ h'.found) := by
  rintro ⟨h1, h2⟩
  rw [found_iff dev eps x y r hok h hnew] at h1
  rw [found_iff dev' eps' x y r' hok' h' hnew'] at h2
  obtain ⟨ha, _, b1, n1⟩ := h1
  obtain ⟨_, _, b2, n2⟩ := h2
  rcases hfar with hb | hf
  · exact hb (b1.symm.trans b2)
  · exact hf (normLt_trans ((normLt_symm _ _ _).1 n1) n2)

/-- **C148, max pooling.** Pooling with a larger radius gives values that are not smaller; a centre that
has a value keeps one. -/
theorem C148_max_pooling (dev dev' : Device) (eps eps' : K) (cin cout : Cloud (Fin (k + 2) → K))
    (radius radius' : RadiusArg K) (radii radii' : Fin (k + 2) → K)
    (hr : poolRadius (k + 2) radius = .ok radii) (hr' : poolRadius (k + 2) radius' = .ok radii')
    (hok : PoolOk cin radii eps) (hok' : PoolOk cin radii' eps') (hle : radii 0 ≤ radii' 0)
    (f : Fin cin.n → ℕ → K) (out out' : Fin cout.n → ℕ → Option K)
    (h : localPool .max dev eps cin cout radius f = .ok out)
    (h' : localPool .max dev' eps' cin cout radius' f = .ok out') (c : Fin cout.n) (ch : ℕ) (v : K)
    (hv : out c ch = some v) : ∃ w, out' c ch = some w ∧ v ≤ w := by
  have h1 := C43_local_max dev eps cin cout radius radii hr hok f out h c ch
  have h2 := C43_local_max dev' eps' cin cout radius' radii' hr' hok' f out' h' c ch
  rw [hv] at h1
  obtain ⟨⟨p, hp, he⟩, _⟩ := h1
  have hp' : p ∈ nbrs cin cout (radii' 0) c := by
    rw [mem_nbrs] at hp ⊢
    exact ⟨hp.1, normLt_mono hle hp.2⟩
  cases ho : out' c ch with
  | none =>
    rw [ho] at h2
    unfold IsMaxOf at h2
    dsimp only at h2
    rw [h2] at hp'
    exact absurd hp' (Finset.notMem_empty _)
  | some w =>
    rw [ho] at h2
    exact ⟨w, rfl, he ▸ h2.2 p hp'⟩

end

abbrev relIn : Cloud (Fin 2 → ℚ) := ⟨3, ![![0, 0], ![2, 0], ![0, 5]], ![0, 0, 0], 1⟩
abbrev relOut : Cloud (Fin 2 → ℚ) := ⟨1, ![![0, 1/2]], ![0], 1⟩
abbrev relF : Fin 3 → ℕ → ℚ := fun p _ => ![4, 1, 7] p

/-- **C148, only the maximum**: the mean over a larger radius can be smaller, even of positive features. Shown
beside `C148_max_pooling`, whose hypotheses this case meets: radii 1 and 3, one more point with a smaller
feature; the maximum stays 4, the mean falls from 4 to 5/2. -/
theorem C148_mean_may_fall :
    PoolOk relIn (fun _ => 1) (1 / 100) ∧ PoolOk relIn (fun _ => 3) (1 / 100) ∧
    (localPool (k := 0) .max .gpu (1 / 100) relIn relOut (.vec [1]) relF).map (fun o => o 0 0) = .ok (some 4) ∧
    (localPool (k := 0) .max .gpu (1 / 100) relIn relOut (.vec [3]) relF).map (fun o => o 0 0) = .ok (some 4) ∧
    (localPool (k := 0) .mean .gpu (1 / 100) relIn relOut (.vec [1]) relF).map (fun o => o 0 0) = .ok (some 4) ∧
    (localPool (k := 0) .mean .gpu (1 / 100) relIn relOut (.vec [3]) relF).map (fun o => o 0 0)
      = .ok (some (5 / 2)) := by
  refine ⟨⟨by decide +kernel, by norm_num, fun _ => le_rfl, by norm_num⟩,
    ⟨by decide +kernel, by norm_num, fun _ => le_rfl, by norm_num⟩, by decide +kernel, by decide +kernel,
    by decide +kernel, by decide +kernel⟩

/-- Non-vacuity of the other statements: the searches exist and find different pairs. -/
example : (Nbh.new (k := 0) .gpu ⟨relIn, fun _ => 1, 1 / 100⟩ (fun _ => 1) (some relOut)).map Nbh.found = .ok [(0, 0)] ∧
    (Nbh.new (k := 0) .gpu ⟨relIn, fun _ => 3, 1 / 100⟩ (fun _ => 3) (some relOut)).map Nbh.found
      = .ok [(0, 0), (1, 0)] := by
  refine ⟨by decide +kernel, by decide +kernel⟩

end PC
