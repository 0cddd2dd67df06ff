import Verif.Props.CudaSampling
import Verif.Props.Sampling
import Mathlib.Data.Fintype.BigOperators
import Mathlib.Algebra.BigOperators.Field

/-!
# C143, C144: sampling again, and how many samples and neighbours there can be
-/

set_option linter.unusedVariables false

namespace PC

section
variable {K : Type*} [Field K] [LinearOrder K] [IsStrictOrderedRing K]

/-- The cloud of the selected points (`tf.gather` of points and batch ids, sampling.py:141-150). -/
def Cloud.pick {α : Type*} {n : ℕ} (c : Cloud α) (sel : Fin n → Fin c.n) (B : ℕ) : Cloud α :=
  ⟨n, fun u => c.pts (sel u), fun u => c.batch (sel u), B⟩

/-! ## C143 -/

/-- A Poisson sample of a Poisson sample, with radii that are not larger, consists of the same points. -/
theorem C143_poisson {D n n' : ℕ} (c : Cloud (Fin D → K)) (rad rad' : Fin D → K) (hr : ∀ d, 0 < rad' d)
    (hle : ∀ d, rad' d ≤ rad d) (sel : Fin n → Fin c.n) (h : IsPoissonSample c rad sel)
    (B : ℕ) (c' : Cloud (Fin D → K)) (hc' : c' = c.pick sel B) (sel' : Fin n' → Fin c'.n)
    (h' : IsPoissonSample c' rad' sel') : Function.Bijective sel' := by
  subst hc'
  refine ⟨h'.inj, fun i => ?_⟩
  obtain ⟨u, hb, hd⟩ := h'.covers i
  refine ⟨u, ?_⟩
  by_contra hne
  have h1 := h.separated i (sel' u) (fun e => hne e.symm) hb.symm
  refine absurd (lt_of_le_of_lt h1 (lt_of_le_of_lt ?_ hd)) (lt_irrefl _)
  refine Finset.sum_le_sum fun d _ => ?_
  rw [div_pow, div_pow]
  have h2 : rad' d ^ 2 ≤ rad d ^ 2 := pow_le_pow_left₀ (hr d).le (hle d) 2
  exact div_le_div_of_nonneg_left (sq_nonneg _) (pow_pos (hr d) 2) h2

end

section
variable {K : Type*} [Field K] [LinearOrder K] [IsStrictOrderedRing K] [FloorRing K] {k : ℕ}

theorem normLt_scaled {D : ℕ} (v : Fin D → K) {r : K} (hr : 0 < r) : normLt v r ↔ ∑ d, (v d / r) ^ 2 < 1 := by
  have : ∑ d, (v d / r) ^ 2 = (∑ d, v d * v d) / (r * r) := by
    rw [Finset.sum_div]
    refine Finset.sum_congr rfl fun d _ => ?_
    rw [div_pow, sq, sq]
  rw [this, div_lt_one (by positivity)]
  exact ⟨fun h => h.2, fun h => ⟨hr, h⟩⟩

/-- The sampling loop of the TensorFlow functions returns Poisson samples. -/
theorem poissonResult_spec {dev : Device} {g : Grid (k + 2) K} {radii : Fin (k + 2) → K}
    {h : Nbh k K} (hnew : Nbh.new dev g radii none = .ok h) (hreg : Regular h)
    {out : List (Fin h.g.c.n)} (hout : PoissonResult h out) :
    IsPoissonSample h.g.c (fun _ => radii 0) (fun u : Fin out.length => h.g.perm (out.get u)) ∧
      (poissonSample h out).1 = h.g.c.pick (fun u : Fin out.length => h.g.perm (out.get u)) h.sample.B := by
  obtain ⟨hnd, hsep⟩ := C25_poisson_separated dev g radii h hnew hreg out hout
  obtain ⟨hA, _, hnd', _⟩ := poisson_invariant hreg.radius_pos (slice_self hnew hreg) hout
  have hrad : h.radii = radii := (new_pairs hnew).2.1
  have hr : 0 < radii 0 := hrad ▸ hreg.radius_pos
  refine ⟨⟨?_, ?_, ?_⟩, rfl⟩
  · intro u v huv
    exact List.nodup_iff_injective_get.1 hnd' (h.g.perm.injective huv)
  · intro u v huv hb
    have := hsep u v huv hb
    rw [normLt_scaled _ hr, not_lt] at this
    exact this
  · intro i
    have := hA (h.g.perm.symm i)
    simp only [Finset.notMem_empty, false_iff, not_forall, not_not] at this
    obtain ⟨c, hc, hN⟩ := this
    obtain ⟨u, hu⟩ := List.mem_iff_get.mp hc
    refine ⟨u, ?_, ?_⟩
    · have h1 := hN.1
      unfold Grid.sortedBatch at h1
      rw [Equiv.apply_symm_apply] at h1
      rw [hu]
      exact h1.symm
    · have h2 := hN.2
      rw [hrad, normLt_scaled _ hr] at h2
      unfold Grid.sortedPts at h2
      rw [Equiv.apply_symm_apply] at h2
      rw [hu]
      exact h2

/-- Poisson disk sampling of a Poisson sample with the TensorFlow functions: whatever is drawn, the returned indices are
all indices, each once. -/
theorem C143_poisson_tf {dev dev' : Device} {g g' : Grid (k + 2) K} {radii radii' : Fin (k + 2) → K} {h h' : Nbh k K}
    (hnew : Nbh.new dev g radii none = .ok h) (hreg : Regular h) {out : List (Fin h.g.c.n)} (hout : PoissonResult h out)
    (hg' : g'.c = (poissonSample h out).1) (hnew' : Nbh.new dev' g' radii' none = .ok h') (hreg' : Regular h')
    (hle : radii' 0 ≤ radii 0) {out' : List (Fin h'.g.c.n)} (hout' : PoissonResult h' out') :
    (poissonSample h' out').2.Perm (List.finRange h'.g.c.n) := by
  obtain ⟨hs, hc⟩ := poissonResult_spec hnew hreg hout
  obtain ⟨hs', _⟩ := poissonResult_spec hnew' hreg' hout'
  have hgc : h'.g.c = h.g.c.pick (fun u : Fin out.length => h.g.perm (out.get u)) h.sample.B := by
    rw [(new_pairs hnew').1, hg', hc]
  have hr : 0 < radii' 0 := by
    have := hreg'.radius_pos
    rwa [(new_pairs hnew').2.1] at this
  have hb := C143_poisson h.g.c _ _ (fun _ => hr) (fun _ => hle) _ hs _ _ hgc _ hs'
  have hnd := (C25_poisson_separated dev' g' radii' h' hnew' hreg' out' hout').1
  rw [List.perm_ext_iff_of_nodup hnd (List.nodup_finRange _)]
  intro i
  refine ⟨fun _ => List.mem_finRange i, fun _ => ?_⟩
  obtain ⟨u, hu⟩ := hb.2 i
  exact List.mem_map.2 ⟨out'.get u, List.get_mem _ _, hu⟩

/-- The same for the CUDA kernels, under every schedule of search and sampling.  `g` is a grid on the cloud of the first
sample; restrictions as for C83. -/
theorem C143_poisson_gpu {n₀ : ℕ} (c₀ : Cloud (Fin (k + 2) → K)) (rad₀ : Fin (k + 2) → K) (sel₀ : Fin n₀ → Fin c₀.n)
    (h₀ : IsPoissonSample c₀ rad₀ sel₀) (B : ℕ) (g : Grid (k + 2) K) (hg : g.c = c₀.pick sel₀ B)
    (tab : ℤ → ℕ × ℕ) (ht : BuiltTable g tab)
    (hn : 0 < g.c.n) (rad : Fin (k + 2) → K) (hr : ∀ d, 0 < rad d) (hle₀ : ∀ d, rad d ≤ rad₀ d)
    (hle : ∀ d, rad d ≤ g.cs d) (fuel : ℕ)
    (hf : Nat.clog 2 g.c.n + 1 ≤ fuel) (Wc Ws Wn : ℕ) (hWc : 0 < Wc) (hWs : 0 < Ws) (hWn : 0 < Wn)
    (hone : g.c.n ≤ 512 + Ws * 64) (total : ℕ) (res : StoreMem)
    (h : FindRun g.c.n offsetsPerBlock Wc Ws Wn
      ((offsetBlocks (k + 2) 1).map (opRanges fuel g tab (cuSorted g)))
      (opHit g (cuSorted g) (fun d => (rad d)⁻¹)) total res)
    (Vc Vs Vp Vo : ℕ) (hVc : 0 < Vc) (hVs : 0 < Vs) (hVp : 0 < Vp) (hVo : 0 < Vo) (n : ℕ) (out : StoreMem)
    (hp : PdRun g.c.n Vc Vs Vp Vo (cuSortedKeys g) (cuNc g) (nbOf res) n out) :
    ∃ sel : Fin n → Fin g.c.n, Function.Bijective sel ∧
      ∀ u : Fin n, ∃ hu : (out.out u.val).1 < g.c.n, sel u = cuPerm g ⟨(out.out u.val).1, hu⟩ := by
  obtain ⟨sel, hs, hu⟩ := C83_pipeline_partial g tab ht hn rad hr hle fuel hf Wc Ws Wn hWc hWs hWn hone total res h
    Vc Vs Vp Vo hVc hVs hVp hVo n out hp
  exact ⟨sel, C143_poisson c₀ rad₀ rad hr hle₀ sel₀ h₀ B g.c hg sel hs, hu⟩

/-- Three points in two cells. -/
abbrev rsGrid : Grid 2 ℚ := ⟨⟨3, ![![0, 0], ![4/5, 0], ![1, 0]], ![0, 0, 0], 1⟩, ![1, 1], 1 / 10⟩

/-- The grid with the same cell sizes on the averages. -/
abbrev rsGrid2 : Grid 2 ℚ := ⟨cellAverage rsGrid 1, ![1, 1], 1 / 10⟩

/-- Property: averaging the averages with the same cell sizes returns as many points. -/
theorem C143_average_false :
    ¬ ∀ (g g' : Grid 2 ℚ) (B : ℕ), g.c.Valid → (∀ d, 0 < g.cs d) → 0 < g.eps → g'.c = cellAverage g B → g'.cs = g.cs →
      g'.eps = g.eps → (cellAverage g' B).n = (cellAverage g B).n := by
  intro h
  have h1 := h rsGrid rsGrid2 1 (by decide) (by decide +kernel) (by decide +kernel) rfl rfl rfl
  have h2 : (cellAverage rsGrid2 1).n = 1 := by decide +kernel
  have h3 : (cellAverage rsGrid 1).n = 2 := by decide +kernel
  rw [h2, h3] at h1
  exact absurd h1 (by decide)

/-! ## C144 -/

/-- Points whose scaled distances are at least 1, in a box with sides of `m` radii. -/
theorem packing {D n : ℕ} (pts : Fin n → Fin D → K) (rad : Fin D → K) (hr : ∀ d, 0 < rad d) (S : Finset (Fin n))
    (hsep : ∀ u ∈ S, ∀ v ∈ S, u ≠ v → 1 ≤ ∑ d, ((pts u d - pts v d) / rad d) ^ 2) (lo : Fin D → K) (m : ℕ)
    (hbox : ∀ u ∈ S, ∀ d, lo d ≤ pts u d ∧ pts u d < lo d + m * rad d) : S.card ≤ (m * D) ^ D := by
  have hcard : (Fintype.piFinset fun _ : Fin D => Finset.range (m * D)).card = (m * D) ^ D := by
    rw [Fintype.card_piFinset]
    simp
  rw [← hcard]
  have hpos : ∀ u ∈ S, ∀ d, 0 ≤ (pts u d - lo d) / rad d * D := by
    intro u hu d
    have := (hbox u hu d).1
    have h1 : 0 ≤ (pts u d - lo d) / rad d := div_nonneg (by linarith) (hr d).le
    positivity
  refine Finset.card_le_card_of_injOn (fun u d => ⌊(pts u d - lo d) / rad d * D⌋.toNat) ?_ ?_
  · intro u hu
    rw [Finset.mem_coe, Fintype.mem_piFinset]
    intro d
    rw [Finset.mem_range]
    have hD : (0 : K) < D := by
      have : 0 < D := lt_of_le_of_lt (Nat.zero_le _) d.isLt
      exact_mod_cast this
    have h1 : (pts u d - lo d) / rad d < m := by
      rw [div_lt_iff₀ (hr d)]
      have := (hbox u hu d).2
      linarith
    have h2 : (pts u d - lo d) / rad d * D < (m * D : ℕ) := by
      push_cast
      exact mul_lt_mul_of_pos_right h1 hD
    have h3 : ⌊(pts u d - lo d) / rad d * D⌋ < (m * D : ℕ) := by
      rw [Int.floor_lt]
      exact_mod_cast h2
    have h4 := Int.floor_nonneg.2 (hpos u hu d)
    dsimp only
    omega
  · intro u hu v hv huv
    by_contra hne
    have h1 := hsep u hu v hv hne
    have hfl : ∀ d, |(pts u d - pts v d) / rad d * D| < 1 := by
      intro d
      have h2 := congrFun huv d
      dsimp only at h2
      have h3 := Int.floor_nonneg.2 (hpos u hu d)
      have h4 := Int.floor_nonneg.2 (hpos v hv d)
      have h5 := Int.abs_sub_lt_one_of_floor_eq_floor (show ⌊(pts u d - lo d) / rad d * D⌋ = ⌊(pts v d - lo d) / rad d * D⌋ by omega)
      have h6 : (pts u d - lo d) / rad d * D - (pts v d - lo d) / rad d * D = (pts u d - pts v d) / rad d * D := by ring
      rwa [h6] at h5
    rcases Nat.eq_zero_or_pos D with h0 | hD
    · subst h0
      simp at h1
      exact absurd h1 (by norm_num)
    · have hDK : (1 : K) ≤ D := by exact_mod_cast hD
      have hne' : (Finset.univ : Finset (Fin D)).Nonempty := ⟨⟨0, hD⟩, Finset.mem_univ _⟩
      have h2 : ∑ d, ((pts u d - pts v d) / rad d) ^ 2 < ∑ d : Fin D, (1 / (D : K)) ^ 2 := by
        refine Finset.sum_lt_sum_of_nonempty hne' fun d _ => ?_
        rw [← sq_abs]
        refine pow_lt_pow_left₀ ?_ (abs_nonneg _) (by norm_num)
        rw [lt_div_iff₀ (by linarith)]
        have := hfl d
        rwa [abs_mul, abs_of_nonneg (by linarith : (0 : K) ≤ D)] at this
      rw [Finset.sum_const, Finset.card_univ, Fintype.card_fin, nsmul_eq_mul] at h2
      have h3 : (D : K) * (1 / (D : K)) ^ 2 ≤ 1 := by
        have : (D : K) * (1 / (D : K)) ^ 2 = 1 / D := by
          field_simp
        rw [this, div_le_one (by linarith)]
        exact hDK
      exact absurd (lt_of_le_of_lt h1 (lt_of_lt_of_le h2 h3)) (lt_irrefl _)

/-- A box with sides of `m` radii holds at most `(m D)^D` Poisson samples of a batch element, however many points were
sampled. -/
theorem C144_samples {D n : ℕ} (c : Cloud (Fin D → K)) (rad : Fin D → K) (hr : ∀ d, 0 < rad d) (sel : Fin n → Fin c.n)
    (h : IsPoissonSample c rad sel) (b : ℕ) (lo : Fin D → K) (m : ℕ) :
    (Finset.univ.filter fun u : Fin n => c.batch (sel u) = b ∧
      ∀ d, lo d ≤ c.pts (sel u) d ∧ c.pts (sel u) d < lo d + m * rad d).card ≤ (m * D) ^ D := by
  refine packing (fun u => c.pts (sel u)) rad hr _ ?_ lo m ?_
  · intro u hu v hv huv
    exact h.separated u v huv ((Finset.mem_filter.1 hu).2.1.trans (Finset.mem_filter.1 hv).2.1.symm)
  · intro u hu
    exact (Finset.mem_filter.1 hu).2.2

/-- In a Poisson sample every position has a bounded number of points of a batch element closer than a radius `R`. -/
theorem C144_neighbors {D n : ℕ} (c : Cloud (Fin D → K)) (rad : Fin D → K) (hr : ∀ d, 0 < rad d) (sel : Fin n → Fin c.n)
    (h : IsPoissonSample c rad sel) (b : ℕ) (x : Fin D → K) (R : Fin D → K) (hR : ∀ d, 0 < R d) (m : ℕ)
    (hm : ∀ d, 2 * R d ≤ m * rad d) :
    (Finset.univ.filter fun u : Fin n => c.batch (sel u) = b ∧
      ∑ d, ((c.pts (sel u) d - x d) / R d) ^ 2 < 1).card ≤ (m * D) ^ D := by
  refine (Finset.card_le_card fun u hu => ?_).trans (C144_samples c rad hr sel h b (fun d => x d - R d) m)
  rw [Finset.mem_filter] at hu ⊢
  refine ⟨Finset.mem_univ _, hu.2.1, fun d => ?_⟩
  have h1 : ((c.pts (sel u) d - x d) / R d) ^ 2 < 1 :=
    lt_of_le_of_lt (Finset.single_le_sum (fun e _ => sq_nonneg ((c.pts (sel u) e - x e) / R e)) (Finset.mem_univ d)) hu.2.2
  have h2 := abs_lt.1 ((sq_lt_one_iff_abs_lt_one _).1 h1)
  have h3 := (lt_div_iff₀ (hR d)).1 h2.1
  have h4 := (div_lt_iff₀ (hR d)).1 h2.2
  have := hm d
  constructor <;> linarith

/-- The neighbour search on a Poisson sample with the TensorFlow functions: the list of pairs has at most
`(m D)^D` entries per centre, whatever the centres. -/
theorem C144_pairs {n : ℕ} (c : Cloud (Fin (k + 2) → K)) (rad : Fin (k + 2) → K) (hr : ∀ d, 0 < rad d)
    (sel : Fin n → Fin c.n) (h : IsPoissonSample c rad sel) (B : ℕ) (dev : Device) (g : Grid (k + 2) K)
    (hg : g.c = c.pick sel B) (ctr : Cloud (Fin (k + 2) → K)) (radii : Fin (k + 2) → K) (m : ℕ)
    (hm : ∀ d, 2 * radii 0 ≤ m * rad d) (hR : 0 < radii 0)
    (r : Pairs g.c.n ctr.n) (hf : findNeighbors dev g ctr radii = .ok r) :
    r.pairs.length ≤ ctr.n * (m * (k + 2)) ^ (k + 2) := by
  obtain ⟨h1, hnd⟩ := C16_search_sound dev g ctr radii r hf
  have hsep : ∀ u v : Fin g.c.n, u ≠ v → g.c.batch u = g.c.batch v →
      1 ≤ ∑ d, ((g.c.pts u d - g.c.pts v d) / rad d) ^ 2 := by
    rw [hg]
    exact h.separated
  have hbound : ∀ i : Fin ctr.n, ((r.pairs.filter fun p => p.2 = i).length) ≤ (m * (k + 2)) ^ (k + 2) := by
    intro i
    have hcard : (r.pairs.filter fun p => p.2 = i).length =
        ((r.pairs.filter fun p => p.2 = i).map (fun p => g.perm p.1)).toFinset.card := by
      rw [List.toFinset_card_of_nodup, List.length_map]
      refine List.Nodup.map_on ?_ (hnd.filter _)
      intro x hx y hy hxy
      rw [List.mem_filter, decide_eq_true_eq] at hx hy
      exact Prod.ext (g.perm.injective hxy) (hx.2.trans hy.2.symm)
    rw [hcard]
    have hmem : ∀ u ∈ ((r.pairs.filter fun p => p.2 = i).map (fun p => g.perm p.1)).toFinset,
        g.c.batch u = ctr.batch i ∧ normLt (fun d => g.c.pts u d - ctr.pts i d) (radii 0) := by
      intro u hu
      rw [List.mem_toFinset, List.mem_map] at hu
      obtain ⟨⟨q, i'⟩, hq, rfl⟩ := hu
      rw [List.mem_filter, decide_eq_true_eq] at hq
      obtain ⟨hq1, rfl⟩ := hq
      exact h1 q i' hq1
    refine packing g.c.pts rad hr _ ?_ (fun d => ctr.pts i d - radii 0) m ?_
    · intro u hu v hv huv
      exact hsep u v huv ((hmem u hu).1.trans (hmem v hv).1.symm)
    · intro u hu d
      have h2 := (normLt_scaled _ hR).1 (hmem u hu).2
      have h3 : ((g.c.pts u d - ctr.pts i d) / radii 0) ^ 2 < 1 :=
        lt_of_le_of_lt (Finset.single_le_sum (fun e _ => sq_nonneg ((g.c.pts u e - ctr.pts i e) / radii 0))
          (Finset.mem_univ d)) h2
      have h4 := abs_lt.1 ((sq_lt_one_iff_abs_lt_one _).1 h3)
      have h5 := (lt_div_iff₀ hR).1 h4.1
      have h6 := (div_lt_iff₀ hR).1 h4.2
      have := hm d
      constructor <;> linarith
  have hsum : r.pairs.length = ∑ i : Fin ctr.n, (r.pairs.filter fun p => p.2 = i).length := by
    generalize r.pairs = l
    induction l with
    | nil => simp
    | cons x l ih =>
      rw [List.length_cons, ih]
      have : ∀ i : Fin ctr.n, ((x :: l).filter fun p => p.2 = i).length =
          (l.filter fun p => p.2 = i).length + if x.2 = i then 1 else 0 := by
        intro i
        rw [List.filter_cons]
        by_cases hx : x.2 = i <;> simp [hx]
      simp only [this]
      rw [Finset.sum_add_distrib, Finset.sum_ite_eq Finset.univ x.2]
      simp
  rw [hsum]
  refine (Finset.sum_le_sum fun i _ => hbound i).trans ?_
  simp

/-- A box with sides of `m` cells holds at most `(m + 1)^D` cell averages of a batch element. -/
theorem C144_averages {D : ℕ} (g : Grid D K) (B : ℕ) (hv : g.c.Valid) (hcs : ∀ d, 0 < g.cs d) (heps : 0 < g.eps)
    (b : ℕ) (lo : Fin D → K) (m : ℕ) :
    (Finset.univ.filter fun u : Fin (cellAverage g B).n => (cellAverage g B).batch u = b ∧
      ∀ d, lo d ≤ (cellAverage g B).pts u d ∧ (cellAverage g B).pts u d < lo d + m * g.cs d).card ≤ (m + 1) ^ D := by
  obtain ⟨f, hf⟩ := C29_cell_average g B hv hcs heps
  have hloc := (C30_mass_and_location g hcs _ f hf).2.2.1
  generalize cellAverage g B = out at f hf hloc
  have hcard : (Fintype.piFinset fun _ : Fin D => Finset.range (m + 1)).card = (m + 1) ^ D := by
    rw [Fintype.card_piFinset]
    simp
  rw [← hcard]
  let L : Fin D → K := fun d => (aabbMin g.eps g.c b d).getD 0
  have hL : ∀ i, g.c.batch i = b → ∀ d, aabbMin g.eps g.c b d = some (L d) := by
    intro i hi d
    obtain ⟨j, _, hmin, _⟩ := aabbMin_own g.eps g.c i d
    rw [hi] at hmin
    show _ = some ((aabbMin g.eps g.c b d).getD 0)
    rw [hmin]
    rfl
  have hlow : ∀ u ∈ Finset.univ.filter (fun u : Fin out.n => out.batch u = b ∧
      ∀ d, lo d ≤ out.pts u d ∧ out.pts u d < lo d + m * g.cs d), ∀ d,
      ⌊(lo d - L d) / g.cs d⌋ ≤ ⌊(out.pts u d - L d) / g.cs d⌋ ∧
        ⌊(out.pts u d - L d) / g.cs d⌋ ≤ ⌊(lo d - L d) / g.cs d⌋ + m := by
    intro u hu d
    obtain ⟨h1, h2⟩ := (Finset.mem_filter.1 hu).2.2 d
    constructor
    · apply Int.floor_le_floor
      exact div_le_div_of_nonneg_right (by linarith) (hcs d).le
    · have : (out.pts u d - L d) / g.cs d ≤ (lo d - L d) / g.cs d + (m : ℤ) := by
        rw [div_add' _ _ _ (hcs d).ne']
        refine div_le_div_of_nonneg_right ?_ (hcs d).le
        push_cast
        linarith
      have h3 := Int.floor_le_floor this
      rwa [Int.floor_add_intCast] at h3
  refine Finset.card_le_card_of_injOn
    (fun u d => (⌊(out.pts u d - L d) / g.cs d⌋ - ⌊(lo d - L d) / g.cs d⌋).toNat) ?_ ?_
  · intro u hu
    rw [Finset.mem_coe, Fintype.mem_piFinset]
    intro d
    rw [Finset.mem_range]
    have := hlow u hu d
    dsimp only
    omega
  · intro u hu v hv' huv
    obtain ⟨i, rfl⟩ := hf.surj u
    obtain ⟨j, rfl⟩ := hf.surj v
    have hi : g.c.batch i = b := (hf.batch i).symm.trans (Finset.mem_filter.1 hu).2.1
    have hj : g.c.batch j = b := (hf.batch j).symm.trans (Finset.mem_filter.1 hv').2.1
    rw [hf.cells]
    refine ⟨hi.trans hj.symm, ?_⟩
    intro d l hl
    rw [hi] at hl
    have hl' : l = L d := by
      rw [hL i hi d] at hl
      exact (Option.some.inj hl).symm
    subst hl'
    rw [← hloc i d (L d) (by rw [hi]; exact hl), ← hloc j d (L d) (by rw [hj]; exact hl)]
    have h1 := hlow _ hu d
    have h2 := hlow _ hv' d
    have h3 := congrFun huv d
    dsimp only at h3
    omega

/-- Points 0 and 2 are a Poisson sample of 0, 1/2, 2 with radius 1. -/
example : IsPoissonSample (⟨3, ![![0], ![1/2], ![2]], ![0, 0, 0], 1⟩ : Cloud (Fin 1 → ℚ)) ![1] (![0, 2] : Fin 2 → Fin 3) :=
  ⟨by decide, by decide +kernel, by decide +kernel⟩

end

end PC
