import Verif.GpuLayer
import Verif.Props.CudaStore
import Verif.Props.CudaProj
import Verif.Props.CudaPdf
import Verif.Props.SearchAgree
import Verif.Props.Layers3
import Verif.Props.Pooling

/-!
# C108: layers on the GPU

All operations of a layer composed: keys, sorting, table, ranges, counting, scan,
storing, densities, projection.
-/

set_option linter.unusedVariables false
set_option linter.unusedSectionVars false

namespace PC

section
variable {K : Type*} [Field K] [LinearOrder K] [IsStrictOrderedRing K] [FloorRing K] {k : ℕ}

theorem getD_map_range (n : ℕ) (c : ℕ → ℕ) {i : ℕ} (h : i < n) : ((List.range n).map c).getD i 0 = c i := by
  simp [List.getD_eq_getElem?_getD, List.getElem?_map, List.getElem?_range h]

theorem getLastD_map_range {n : ℕ} (hn : 0 < n) (c : ℕ → ℕ) : ((List.range n).map c).getLastD 0 = c (n - 1) := by
  obtain ⟨m, rfl⟩ : ∃ m, n = m + 1 := ⟨n - 1, by omega⟩
  rw [List.range_succ, List.map_append]
  simp

/-- The slot ranges cover all positions. -/
theorem slot_exists {n total : ℕ} {cnt : ℕ → ℕ} (hn : 0 < n) (hlast : cnt (n - 1) = total) {j : ℕ} (hj : j < total) :
    ∃ s, s < n ∧ (if s = 0 then 0 else cnt (s - 1)) ≤ j ∧ j < cnt s := by
  have hex : ∃ s, j < cnt s := ⟨n - 1, by omega⟩
  classical
  have h1 := Nat.find_spec hex
  have h3 : Nat.find hex ≤ n - 1 := Nat.find_min' hex (by omega)
  refine ⟨Nat.find hex, by omega, ?_, h1⟩
  split
  · omega
  · next hne =>
    have := Nat.find_min hex (m := Nat.find hex - 1) (by omega)
    omega

/-- What a run of the search on the GPU returns. -/
theorem gpuFind_spec (Ws : ℕ) (g : Grid (k + 2) K) (ctr : Cloud (Fin (k + 2) → K)) (radii : Fin (k + 2) → K)
    (hr : ∀ d, 0 < radii d) (hle : ∀ d, radii d ≤ g.cs d) (hW : 0 < Ws) (hn : 0 < ctr.n)
    (hone : ctr.n ≤ 512 + Ws * 64) (nb : Pairs g.c.n ctr.n) (h : GpuFind Ws g ctr radii nb) :
    RangesDelimit nb.ranges nb.pairs ∧
    (∀ i s, (i, s) ∈ nb.pairs ↔ g.c.batch (cuPerm g i) = ctr.batch s ∧
      ∑ d, ((ctr.pts s d - g.c.pts (cuPerm g i) d) / radii d) ^ 2 < 1) ∧
    (k ≤ 1 ∨ 3 ≤ g.numCells (Fin.last _) → nb.pairs.Nodup) := by
  obtain ⟨tab, fuel, Wc, Wn, total, res, htab, hfuel, hWc, hWn, hrun, hrng, hpairs⟩ := h
  have ht : BuiltTable g tab := htab
  have hcen : ∀ s : Fin ctr.n, ctr.center s.val = (ctr.batch s, ctr.pts s) := by
    intro s
    unfold Cloud.center
    rw [dif_pos s.isLt]
  have hspec := fun s (hs : s < ctr.n) => C58_find_neighbors_partial g tab ht ctr.center radii hr hle fuel hfuel
    ctr.n Wc Ws Wn hWc hW hWn hn hone total res hrun s hs
  have hlen : nb.pairs.length = total := by
    have := congrArg List.length hpairs
    simpa using this
  have hget : ∀ j (hj : j < nb.pairs.length), res.out j = ((nb.pairs[j]).1.val, (nb.pairs[j]).2.val) := by
    intro j hj
    have := congrArg (fun l => l[j]?) hpairs
    simp only [List.getElem?_map, List.getElem?_eq_getElem hj, List.getElem?_range (hlen ▸ hj), Option.map_some] at this
    exact (Option.some.inj this).symm
  set lo : ℕ → ℕ := fun s => if s = 0 then 0 else res.cnt (s - 1) with hlo
  have hmono : ∀ a b, a ≤ b → b < ctr.n → res.cnt a ≤ res.cnt b := by
    intro a b hab
    induction b, hab using Nat.le_induction with
    | base => intro _; exact le_rfl
    | succ b hab ih =>
      intro hb
      refine (ih (by omega)).trans ?_
      have := (hspec (b + 1) hb).1
      simpa using this
  have hlast : res.cnt (ctr.n - 1) = total := (hspec (ctr.n - 1) (by omega)).2.2.1 (by omega)
  -- every position is in the slot range of a centre
  have hslot : ∀ j, j < total → ∃ s, s < ctr.n ∧ lo s ≤ j ∧ j < res.cnt s := by
    intro j hj
    exact slot_exists hn hlast hj
  have hsecond : ∀ s, s < ctr.n → ∀ j (hj : j < nb.pairs.length), lo s ≤ j → j < res.cnt s →
      (nb.pairs[j]).2.val = s := by
    intro s hs j hj h1 h2
    have := ((hspec s hs).2.2.2.1 (nb.pairs[j]).1.val (nb.pairs[j]).2.val).mp ⟨j, h1, h2, hget j hj⟩
    exact this.1
  have hiff : ∀ (i : Fin ctr.n) (j : Fin nb.pairs.length), (lo i.val ≤ j.val ∧ j.val < res.cnt i.val) ↔
      (nb.pairs.get j).2 = i := by
    intro i j
    constructor
    · rintro ⟨h1, h2⟩
      exact Fin.ext (hsecond i.val i.isLt j.val j.isLt h1 h2)
    · intro h1
      obtain ⟨s, hs, h2, h3⟩ := hslot j.val (hlen ▸ j.isLt)
      have h4 := hsecond s hs j.val j.isLt h2 h3
      have h5 : s = i.val := by rw [← h4, ← h1]; rfl
      subst h5
      exact ⟨h2, h3⟩
  refine ⟨⟨?_, ?_, ?_, ?_⟩, ?_, ?_⟩
  · rw [hrng]; simp
  · rw [hrng, List.pairwise_map]
    refine List.Pairwise.imp_of_mem ?_ (List.pairwise_lt_range (n := ctr.n))
    intro a b ha hb hab
    exact hmono a b hab.le (List.mem_range.mp hb)
  · rw [hrng, getLastD_map_range hn, hlast, hlen]
  · intro i j
    rw [← hiff i j, hrng, getD_map_range _ _ i.isLt]
    have e : (if i.val = 0 then 0 else ((List.range ctr.n).map res.cnt).getD (i.val - 1) 0) = lo i.val := by
      simp only [hlo]
      split
      · rfl
      · rw [getD_map_range _ _ (by omega)]
    rw [e]
  · intro i s
    have hs := (hspec s.val s.isLt).2.2.2.1 i.val s.val
    rw [hcen s] at hs
    constructor
    · intro hm
      obtain ⟨j, hj⟩ := List.mem_iff_get.mp hm
      have h1 := (hiff s j).mpr (by rw [hj])
      have h2 := hs.mp ⟨j.val, h1.1, h1.2, by
        rw [hget j.val j.isLt]
        have : nb.pairs[j.val] = (i, s) := hj
        rw [this]⟩
      obtain ⟨_, _, hb, hd⟩ := h2
      exact ⟨hb, hd⟩
    · rintro ⟨hb, hd⟩
      obtain ⟨j, h1, h2, h3⟩ := hs.mpr ⟨rfl, i.isLt, hb, hd⟩
      have hjt : j < nb.pairs.length := by
        rw [hlen]
        have := (hspec s.val s.isLt).2.1
        omega
      rw [hget j hjt] at h3
      have h4 : nb.pairs[j] = (i, s) := by
        obtain ⟨e1, e2⟩ := Prod.mk.inj h3
        exact Prod.ext (Fin.ext e1) (Fin.ext e2)
      rw [← h4]
      exact List.getElem_mem hjt
  · intro hdim
    rw [List.nodup_iff_injective_get]
    intro j j' hjj
    have h1 := (hiff (nb.pairs.get j).2 j).mpr rfl
    have h2 := (hiff (nb.pairs.get j).2 j').mpr (by rw [hjj])
    refine Fin.ext ((hspec _ (nb.pairs.get j).2.isLt).2.2.2.2 hdim j.val j'.val h1.1 h1.2 h2.1 h2.2 ?_)
    rw [hget j.val j.isLt, hget j'.val j'.isLt]
    have : nb.pairs[j.val] = nb.pairs[j'.val] := hjj
    rw [this]

/-- Every schedule of the search gives lists of pairs. -/
theorem gpuFind_of_run (Ws : ℕ) (g : Grid (k + 2) K) (ctr : Cloud (Fin (k + 2) → K)) (radii : Fin (k + 2) → K)
    (hr : ∀ d, 0 < radii d) (hle : ∀ d, radii d ≤ g.cs d) (hW : 0 < Ws) (hn : 0 < ctr.n)
    (hone : ctr.n ≤ 512 + Ws * 64) (tab : ℤ → ℕ × ℕ) (htab : BuiltTable g tab) (total : ℕ) (res : StoreMem)
    (hrun : FindRun ctr.n offsetsPerBlock 1 Ws 1
      ((offsetBlocks (k + 2) 1).map (opRanges (Nat.clog 2 g.c.n + 1) g tab ctr.center))
      (opHit g ctr.center (fun d => (radii d)⁻¹)) total res) :
    ∃ nb, GpuFind Ws g ctr radii nb ∧
      nb.pairs.map (fun p => (p.1.val, p.2.val)) = (List.range total).map res.out := by
  have hspec := fun s (hs : s < ctr.n) => C58_find_neighbors_partial g tab htab ctr.center radii hr hle _ le_rfl
    ctr.n 1 Ws 1 one_pos hW one_pos hn hone total res hrun s hs
  have hlast : res.cnt (ctr.n - 1) = total := (hspec (ctr.n - 1) (by omega)).2.2.1 (by omega)
  have hlt : ∀ j : Fin total, (res.out j.val).1 < g.c.n ∧ (res.out j.val).2 < ctr.n := by
    intro j
    obtain ⟨s, hs, h1, h2⟩ := slot_exists hn hlast j.isLt
    obtain ⟨e, hi, _⟩ := ((hspec s hs).2.2.2.1 (res.out j.val).1 (res.out j.val).2).mp ⟨j.val, h1, h2, rfl⟩
    exact ⟨hi, by omega⟩
  have hp : ((List.finRange total).map (fun j => ((⟨(res.out j.val).1, (hlt j).1⟩, ⟨(res.out j.val).2, (hlt j).2⟩) :
      Fin g.c.n × Fin ctr.n))).map (fun p => (p.1.val, p.2.val)) = (List.range total).map res.out := by
    simp only [List.map_map]
    rw [← List.map_coe_finRange_eq_range, List.map_map]
    rfl
  exact ⟨⟨(List.range ctr.n).map res.cnt, _⟩, ⟨tab, _, 1, 1, total, res, htab, le_rfl,
    one_pos, one_pos, hrun, rfl, hp⟩, hp⟩

/-- The search has a run. -/
theorem gpuFind_exists (Ws : ℕ) (g : Grid (k + 2) K) (ctr : Cloud (Fin (k + 2) → K)) (radii : Fin (k + 2) → K)
    (hr : ∀ d, 0 < radii d) (hle : ∀ d, radii d ≤ g.cs d) (hW : 0 < Ws) (hn : 0 < ctr.n)
    (hone : ctr.n ≤ 512 + Ws * 64) : ∃ nb, GpuFind Ws g ctr radii nb := by
  obtain ⟨tab, htab⟩ : ∃ tab, BuiltTable g tab := ⟨_, 1, _, one_pos, Interleave.exists_seq _, rfl⟩
  obtain ⟨total, res, hrun⟩ := C58_run_exists ctr.n offsetsPerBlock 1 Ws 1 hW hn hone
    ((offsetBlocks (k + 2) 1).map (opRanges (Nat.clog 2 g.c.n + 1) g tab ctr.center))
    (opHit g ctr.center (fun d => (radii d)⁻¹))
  obtain ⟨nb, h, _⟩ := gpuFind_of_run Ws g ctr radii hr hle hW hn hone tab htab total res hrun
  exact ⟨nb, h⟩

theorem rangesDelimit_map {n n' m : ℕ} {ranges : List ℕ} {pairs : List (Fin n × Fin m)}
    (h : RangesDelimit ranges pairs) (φ : Fin n → Fin n') :
    RangesDelimit ranges (pairs.map (fun p => (φ p.1, p.2))) := by
  obtain ⟨h1, h2, h3, h4⟩ := h
  refine ⟨h1, h2, by rw [h3, List.length_map], fun i j => ?_⟩
  have := h4 i ⟨j.val, by simpa using j.isLt⟩
  simpa using this

theorem mem_gpuIds (g : Grid (k + 2) K) {m : ℕ} (nb : Pairs g.c.n m) (p : Fin g.c.n) (c : Fin m) :
    (p, c) ∈ gpuIds g nb ↔ ((cuPerm g).symm p, c) ∈ nb.pairs := by
  simp only [gpuIds, List.mem_map, Prod.mk.injEq]
  constructor
  · rintro ⟨⟨a, b⟩, hab, e1, e2⟩
    simp only at e1 e2
    subst e1 e2
    simpa using hab
  · intro hm
    exact ⟨_, hm, by simp, rfl⟩

theorem gpuIds_get (g : Grid (k + 2) K) {m : ℕ} (nb : Pairs g.c.n m) (j : Fin (gpuIds g nb).length)
    (hj : j.val < nb.pairs.length) : ((gpuIds g nb).get j).1 = cuPerm g (nb.pairs[j.val]).1 := by
  have : ∀ {α β : Type _} (l : List α) (f : α → β) (l' : List β) (hl : l' = l.map f)
      (j : Fin l'.length) (hj : j.val < l.length), l'.get j = f (l[j.val]) := by
    intro α β l f l' hl j hj
    subst hl
    simp
  rw [this nb.pairs (fun p => (cuPerm g p.1, p.2)) (gpuIds g nb) rfl j hj]

/-- What the pairs in input indices are. -/
theorem gpuIds_spec (Ws : ℕ) (cin cout : Cloud (Fin (k + 2) → K)) (radius eps : K)
    (hr : 0 < radius) (hW : 0 < Ws) (hn : 0 < cout.n) (hone : cout.n ≤ 512 + Ws * 64)
    (nb : Pairs cin.n cout.n)
    (h : GpuFind Ws (⟨cin, fun _ => radius, eps⟩ : Grid (k + 2) K) cout (fun _ => radius) nb) :
    RangesDelimit nb.ranges (gpuIds (⟨cin, fun _ => radius, eps⟩ : Grid (k + 2) K) nb) ∧
    (k ≤ 1 ∨ 3 ≤ (⟨cin, fun _ => radius, eps⟩ : Grid (k + 2) K).numCells (Fin.last _) →
      (gpuIds (⟨cin, fun _ => radius, eps⟩ : Grid (k + 2) K) nb).Nodup) ∧
      ∀ c : Fin cout.n, Finset.univ.filter (fun p : Fin cin.n =>
        (p, c) ∈ gpuIds (⟨cin, fun _ => radius, eps⟩ : Grid (k + 2) K) nb) = nbrs cin cout radius c := by
  obtain ⟨h1, h2, h3⟩ := gpuFind_spec Ws (⟨cin, fun _ => radius, eps⟩ : Grid (k + 2) K) cout (fun _ => radius)
    (fun _ => hr) (fun _ => le_rfl) hW hn hone nb h
  refine ⟨rangesDelimit_map h1 _, ?_, ?_⟩
  · intro hdim
    refine List.Nodup.map ?_ (h3 hdim)
    intro a b hab
    obtain ⟨e1, e2⟩ := Prod.mk.inj hab
    exact Prod.ext ((cuPerm _).injective e1) e2
  · intro c
    ext p
    rw [mem_nbrs]
    simp only [Finset.mem_filter, Finset.mem_univ, true_and]
    refine (mem_gpuIds (⟨cin, fun _ => radius, eps⟩ : Grid (k + 2) K) nb p c).trans ?_
    rw [h2, Equiv.apply_symm_apply]
    unfold IsNeighbor
    rw [scaled_lt_iff _ _ hr]

/-! ## pooling -/

/-- **C108, local pooling.** For one radius, every schedule of all kernels of the
search: max pooling on the GPU returns what the TensorFlow implementation
returns, in every dimension. -/
theorem C108_max_pool (Ws : ℕ) (dev : Device) (cin cout : Cloud (Fin (k + 2) → K)) (radius eps : K)
    (hv : cin.Valid) (hr : 0 < radius) (heps : 0 < eps) (hW : 0 < Ws) (hn : 0 < cout.n)
    (hone : cout.n ≤ 512 + Ws * 64) (f : Fin cin.n → ℕ → K) (out tf : Fin cout.n → ℕ → Option K)
    (h : GpuPool Ws .max eps cin cout radius f out)
    (htf : localPool .max dev eps cin cout (.vec [radius]) f = .ok tf) : out = tf := by
  obtain ⟨nb, hf, rfl⟩ := h
  obtain ⟨_, _, h3⟩ := gpuIds_spec Ws cin cout radius eps hr hW hn hone nb hf
  funext c ch
  have h1 := pairs_max (gpuIds (⟨cin, fun _ => radius, eps⟩ : Grid (k + 2) K) nb) (fun p => f p ch) c
  have h2 := C43_local_max dev eps cin cout (.vec [radius]) (fun _ => radius) rfl
    ⟨hv, hr, fun _ => le_rfl, heps⟩ f tf htf c ch
  rw [← h3 c] at h2
  exact h1.unique h2

/-- **C108, average pooling**, in two and three dimensions (or with at least three
cells in the last dimension).  Missing: more dimensions, where the claim is
false, and radii that differ between the dimensions (C107). -/
theorem C108_mean_pool_partial (Ws : ℕ) (dev : Device) (cin cout : Cloud (Fin (k + 2) → K)) (radius eps : K)
    (hv : cin.Valid) (hr : 0 < radius) (heps : 0 < eps) (hW : 0 < Ws) (hn : 0 < cout.n)
    (hone : cout.n ≤ 512 + Ws * 64)
    (hdim : k ≤ 1 ∨ 3 ≤ (⟨cin, fun _ => radius, eps⟩ : Grid (k + 2) K).numCells (Fin.last _))
    (f : Fin cin.n → ℕ → K) (out tf : Fin cout.n → ℕ → Option K)
    (h : GpuPool Ws .mean eps cin cout radius f out)
    (htf : localPool .mean dev eps cin cout (.vec [radius]) f = .ok tf) : out = tf := by
  obtain ⟨nb, hf, rfl⟩ := h
  obtain ⟨_, h2, h3⟩ := gpuIds_spec Ws cin cout radius eps hr hW hn hone nb hf
  funext c ch
  have h1 := pairs_mean _ (h2 hdim) (fun p => f p ch) c
  have h4 : tf c ch = _ := localPool_spec .mean dev eps cin cout (.vec [radius]) (fun _ => radius) rfl
    ⟨hv, hr, fun _ => le_rfl, heps⟩ f tf htf c ch
  rw [h4, ← h3 c]
  exact congrArg some h1

end

/-! ## densities -/

section
variable {k : ℕ}

/-- The kernel as the CUDA code computes it (exactly): the literal `0.39894228` in
place of `1/√(2π)`. -/
noncomputable def cuGauss (x : ℝ) : ℝ := pdfConst * Real.exp (-x ^ 2 / 2)

theorem cuGauss_eq (x : ℝ) : cuGauss x = gauss x * (pdfConst * Real.sqrt (2 * Real.pi)) := by
  unfold cuGauss gauss
  have : Real.sqrt (2 * Real.pi) ≠ 0 := by
    have := Real.pi_pos
    positivity
  field_simp

theorem density_cuGauss (c : Cloud (Fin (k + 2) → ℝ)) (bw radii : Fin (k + 2) → ℝ) (p : Fin c.n) :
    density cuGauss c bw radii p = density gauss c bw radii p * (pdfConst * Real.sqrt (2 * Real.pi)) ^ (k + 2) := by
  unfold density
  simp only [cuGauss_eq, Finset.prod_mul_distrib, Finset.prod_const, Finset.card_univ, Fintype.card_fin]
  rw [← Finset.sum_mul]
  ring

/-- The densities of the GPU. -/
theorem gpuPdf_spec (Ws : ℕ) (cin : Cloud (Fin (k + 2) → ℝ)) (radius eps bw : ℝ) (hr : 0 < radius) (hW : 0 < Ws)
    (hn : 0 < cin.n) (hone : cin.n ≤ 512 + Ws * 64)
    (hdim : k ≤ 1 ∨ 3 ≤ (⟨cin, fun _ => radius, eps⟩ : Grid (k + 2) ℝ).numCells (Fin.last _)) {m : ℕ}
    (nb : Pairs cin.n m) (pdf : List ℝ)
    (h : GpuPdf Ws (⟨cin, fun _ => radius, eps⟩ : Grid (k + 2) ℝ) (fun _ => radius) (fun _ => bw) nb pdf)
    (j : Fin (gpuIds (⟨cin, fun _ => radius, eps⟩ : Grid (k + 2) ℝ) nb).length) :
    pdf.getD j.val 0 = density cuGauss cin (fun _ => bw) (fun _ => radius)
      ((gpuIds (⟨cin, fun _ => radius, eps⟩ : Grid (k + 2) ℝ) nb).get j).1 := by
  obtain ⟨self, B, W, out, hB, hW', hf, hp, rfl⟩ := h
  obtain ⟨h1, h2, h3⟩ := gpuFind_spec Ws (⟨cin, fun _ => radius, eps⟩ : Grid (k + 2) ℝ)
    (⟨cin, fun _ => radius, eps⟩ : Grid (k + 2) ℝ).cuSorted (fun _ => radius) (fun _ => hr) (fun _ => le_rfl) hW hn hone self hf
  have hj : j.val < nb.pairs.length := by simpa [gpuIds] using j.isLt
  have e1 : ((gpuIds (⟨cin, fun _ => radius, eps⟩ : Grid (k + 2) ℝ) nb).get j).1 =
      cuPerm (⟨cin, fun _ => radius, eps⟩ : Grid (k + 2) ℝ) (nb.pairs[j.val]).1 :=
    gpuIds_get (⟨cin, fun _ => radius, eps⟩ : Grid (k + 2) ℝ) nb j hj
  have e2 : (nb.pairs.map (fun p => out p.1.val)).getD j.val 0 = out (nb.pairs[j.val]).1.val := by
    simp [List.getD_eq_getElem?_getD, List.getElem?_eq_getElem hj]
  rw [e1, e2, density_cuGauss]
  generalize (nb.pairs[j.val]).1 = i
  have := cuda_eq_tf _ self.ranges self.pairs h1 (fun _ => bw) (fun _ => radius) B W hB hW' out hp i i.isLt
  rw [this]
  congr 1
  refine (pdfOfPairs_eq gauss _ (fun _ => bw) (fun _ => radius) .constant self.pairs (h3 hdim) i i rfl).trans ?_
  unfold density
  congr 1
  refine Finset.sum_bij (fun q _ => cuPerm (⟨cin, fun _ => radius, eps⟩ : Grid (k + 2) ℝ) q) ?_ ?_ ?_ ?_
  · intro q hq
    simp only [Finset.mem_filter, Finset.mem_univ, true_and] at hq ⊢
    have h4 := (h2 q i).mp hq
    exact ⟨h4.1, (scaled_lt_iff _ _ hr).mpr h4.2⟩
  · intro a _ b _ hab
    exact (cuPerm _).injective hab
  · intro q hq
    simp only [Finset.mem_filter, Finset.mem_univ, true_and] at hq
    refine ⟨(cuPerm _).symm q, ?_, by simp⟩
    simp only [Finset.mem_filter, Finset.mem_univ, true_and]
    refine (h2 _ i).mpr ?_
    rw [Equiv.apply_symm_apply]
    exact ⟨hq.1, (scaled_lt_iff _ _ hr).mp hq.2⟩
  · intro q _
    rfl

/-- The projection of the GPU. -/
theorem gpuProj_spec {n m : ℕ} (pairs : List (Fin n × Fin m)) (ranges : List ℕ) (hd : RangesDelimit ranges pairs)
    (nf cols : ℕ) (hK : opBasisOk cols = true) (hf : opFeaturesOk nf = true)
    (basis : Fin pairs.length → ℕ → ℝ) (f : Fin n → ℕ → ℝ) (wf : Fin m → ℕ → ℕ → ℝ)
    (h : GpuProj pairs ranges nf cols basis f wf) (c : Fin m) (ch b : ℕ) (hch : ch < nf) (hb : b < cols) :
    wf c ch b = basisProj pairs basis f c ch b := by
  obtain ⟨W, out, hW, hp, rfl⟩ := h
  have := C62_forward_equals_tf ranges pairs hd (fun j (b : Fin cols) => basis j b.val)
    (fun p (ch : Fin nf) => f p ch.val) (by simpa [opBasisOk, projBasisOk] using hK)
    (by simpa [opFeaturesOk, projFeatOk] using hf) W hW out hp c ⟨ch, hch⟩ ⟨b, hb⟩
  refine this.trans ?_
  unfold basisProj gatherD
  simp

theorem gpuProj_exists {n m : ℕ} (pairs : List (Fin n × Fin m)) (ranges : List ℕ) (nf cols : ℕ)
    (basis : Fin pairs.length → ℕ → ℝ) (f : Fin n → ℕ → ℝ) : ∃ wf, GpuProj pairs ranges nf cols basis f wf := by
  obtain ⟨out, h⟩ := exists_projFwd (projArgs pairs (fun i => ranges.getD i 0) (fun j (b : Fin cols) => basis j b.val)
    (fun p (ch : Fin nf) => f p ch.val)) 1
  exact ⟨_, 1, out, one_pos, h, rfl⟩

theorem gpuPdf_exists (Ws : ℕ) (cin : Cloud (Fin (k + 2) → ℝ)) (radius eps bw : ℝ) (hr : 0 < radius) (hW : 0 < Ws)
    (hin : 0 < cin.n) (hone : cin.n ≤ 512 + Ws * 64) {m : ℕ} (nb : Pairs cin.n m) :
    ∃ pdf, GpuPdf Ws (⟨cin, fun _ => radius, eps⟩ : Grid (k + 2) ℝ) (fun _ => radius) (fun _ => bw) nb pdf := by
  obtain ⟨self, h⟩ := gpuFind_exists Ws (⟨cin, fun _ => radius, eps⟩ : Grid (k + 2) ℝ)
    (⟨cin, fun _ => radius, eps⟩ : Grid (k + 2) ℝ).cuSorted (fun _ => radius) (fun _ => hr) (fun _ => le_rfl) hW hin hone
  obtain ⟨out, h2⟩ := exists_pdfFwd (pdfArgs (⟨cin, fun _ => radius, eps⟩ : Grid (k + 2) ℝ).cuSorted.pts self.pairs
    (fun i => self.ranges.getD i 0) (fun _ => bw) (fun _ => radius)) KDEMode.constant.value 1 1
  exact ⟨_, self, 1, 1, out, one_pos, one_pos, h, h2, rfl⟩

/-! ## layers -/

theorem MCLayer.finish_eq (act : ℝ → ℝ) (L : MCLayer ℝ) (D : ℕ) {n m : ℕ} (pairs : List (Fin n × Fin m))
    (input : Fin pairs.length → ℕ → ℝ) (pdf : Fin pairs.length → ℝ) (f : Fin n → ℕ → ℝ)
    (wf : Fin m → ℕ → ℕ → ℝ) (hm : L.mlps ≠ 0) (hdiv : L.mlps ∣ L.cout)
    (hwf : ∀ c ch b, ch < L.cin → b < L.mlps * L.hid →
      wf c ch b = basisProj pairs (fun j => L.basis act D (input j) (pdf j)) f c ch b)
    (c : Fin m) (o : ℕ) (ho : o < L.cout) : L.finish wf c o = L.conv act D pairs input pdf f c o := by
  unfold MCLayer.finish MCLayer.conv
  dsimp only
  refine Finset.sum_congr rfl fun x hx => ?_
  rw [Finset.mem_range] at hx
  have hh : 0 < L.hid := by
    rcases Nat.eq_zero_or_pos L.hid with h | h
    · rw [h] at hx; omega
    · exact h
  have h1 : x / L.hid < L.cin := (Nat.div_lt_iff_lt_mul hh).mpr hx
  have h2 := (C42_channel_blocks L.cout L.mlps hm hdiv o ho 0).1
  have h3 : o / (L.cout / L.mlps) * L.hid + x % L.hid < L.mlps * L.hid := by
    have := Nat.mod_lt x hh
    calc o / (L.cout / L.mlps) * L.hid + x % L.hid < o / (L.cout / L.mlps) * L.hid + L.hid := by omega
      _ = (o / (L.cout / L.mlps) + 1) * L.hid := by ring
      _ ≤ L.mlps * L.hid := Nat.mul_le_mul_right _ h2
  rw [hwf c _ _ h1 h3]

/-- **C108, MCConv, the formula.** For every schedule of every kernel the output of
the layer on the GPU is the Monte-Carlo estimate of C41 with the kernel as the
CUDA code computes it. -/
theorem C108_mcconv_formula_partial (act : ℝ → ℝ) (Ws : ℕ) (eps : ℝ) (L : MCLayer ℝ)
    (cin cout : Cloud (Fin (k + 2) → ℝ)) (radius bw : ℝ) (hr : 0 < radius) (hW : 0 < Ws) (hin : 0 < cin.n)
    (hn : 0 < cout.n) (hone : cin.n ≤ 512 + Ws * 64) (hone' : cout.n ≤ 512 + Ws * 64)
    (hdim : k ≤ 1 ∨ 3 ≤ (⟨cin, fun _ => radius, eps⟩ : Grid (k + 2) ℝ).numCells (Fin.last _))
    (hm : L.mlps ≠ 0) (hdiv : L.mlps ∣ L.cout) (hb : opBasisOk (L.mlps * L.hid) = true)
    (hf : opFeaturesOk L.cin = true) (f : Fin cin.n → ℕ → ℝ) (out : Fin cout.n → ℕ → ℝ)
    (h : L.GpuCall act Ws eps cin cout radius bw f out) (c : Fin cout.n) (o : ℕ) (ho : o < L.cout) :
    out c o = mcSpec cuGauss act L cin cout radius bw f c o := by
  obtain ⟨nb, pdf, wf, h1, h2, h3, rfl⟩ := h
  obtain ⟨g1, g2, g3⟩ := gpuIds_spec Ws cin cout radius eps hr hW hn hone' nb h1
  have hp := gpuPdf_spec Ws cin radius eps bw hr hW hin hone hdim nb pdf h2
  rw [L.finish_eq act (k + 2) _ _ (fun j => pdf.getD j.val 0) f wf hm hdiv
    (fun c ch b hch hb' => gpuProj_spec _ _ g1 _ _ hb hf _ _ _ h3 c ch b hch hb') c o ho]
  simp only [hp]
  refine (mcConv_eq act L (k + 2) _ (g2 hdim)
    (fun p c => rowOf (fun d => (cin.pts p d - cout.pts c d) / radius))
    (fun p => density cuGauss cin (fun _ => bw) (fun _ => radius) p) f c o).trans ?_
  rw [g3 c]
  rfl

theorem mcSpec_cuGauss (act : ℝ → ℝ) (L : MCLayer ℝ) (cin cout : Cloud (Fin (k + 2) → ℝ)) (radius bw : ℝ)
    (f : Fin cin.n → ℕ → ℝ) (c : Fin cout.n) (o : ℕ) :
    mcSpec cuGauss act L cin cout radius bw f c o =
      mcSpec gauss act L cin cout radius bw f c o / (pdfConst * Real.sqrt (2 * Real.pi)) ^ (k + 2) := by
  unfold mcSpec
  simp only [div_eq_mul_inv, Finset.sum_mul]
  refine Finset.sum_congr rfl fun p _ => Finset.sum_congr rfl fun ch _ => Finset.sum_congr rfl fun hh _ => ?_
  rw [density_cuGauss, mul_inv]
  ring

/-- **C108, MCConv.** For every schedule of every kernel, the layer on the GPU
returns the output of the TensorFlow implementation divided by
`(0.39894228·√(2π))^D`, which differs from 1 by at most `2·10⁻⁸`.  Missing: more
than three dimensions (with fewer than three cells in the last one), more points
than the device can scan at once (C57), and rounding. -/
theorem C108_mcconv_partial (act : ℝ → ℝ) (Ws : ℕ) (dev : Device) (eps : ℝ) (L : MCLayer ℝ)
    (cin cout : Cloud (Fin (k + 2) → ℝ)) (radius bw : ℝ) (hok : LayerOk cin cout radius eps) (hk : k + 2 ≤ 6)
    (hW : 0 < Ws) (hin : 0 < cin.n) (hn : 0 < cout.n) (hone : cin.n ≤ 512 + Ws * 64)
    (hone' : cout.n ≤ 512 + Ws * 64)
    (hdim : k ≤ 1 ∨ 3 ≤ (⟨cin, fun _ => radius, eps⟩ : Grid (k + 2) ℝ).numCells (Fin.last _))
    (hm : L.mlps ≠ 0) (hdiv : L.mlps ∣ L.cout) (hb : opBasisOk (L.mlps * L.hid) = true)
    (hf : opFeaturesOk L.cin = true) (f : Fin cin.n → ℕ → ℝ) (out tf : Fin cout.n → ℕ → ℝ)
    (h : L.GpuCall act Ws eps cin cout radius bw f out)
    (htf : L.call gauss act dev eps cin cout radius bw f = .ok tf) :
    ∃ γ : ℝ, |γ - 1| ≤ 2 / 10 ^ 8 ∧ ∀ (c : Fin cout.n) (o : ℕ), o < L.cout → out c o * γ = tf c o := by
  refine ⟨_, pdfConst_pow hk, fun c o ho => ?_⟩
  have hγ : (pdfConst * Real.sqrt (2 * Real.pi)) ^ (k + 2) ≠ 0 := by
    have := abs_le.mp (pdfConst_pow hk)
    intro h0
    rw [h0] at this
    norm_num at this
  rw [C108_mcconv_formula_partial act Ws eps L cin cout radius bw hok.radius_pos hW hin hn hone hone' hdim hm hdiv
    hb hf f out h c o ho, mcSpec_cuGauss, C41_mcconv_formula gauss act dev eps L cin cout radius bw hok f tf htf c o,
    div_mul_cancel₀ _ hγ]

theorem gammaPow_pos (D : ℕ) : 0 < (pdfConst * Real.sqrt (2 * Real.pi)) ^ D := by
  have := Real.pi_pos
  have : 0 < pdfConst := by unfold pdfConst; norm_num
  positivity

theorem maxOver_cuGauss (cin : Cloud (Fin (k + 2) → ℝ)) (bw radii : Fin (k + 2) → ℝ) (s : Finset (Fin cin.n)) :
    maxOver s (density cuGauss cin bw radii) =
      maxOver s (density gauss cin bw radii) * (pdfConst * Real.sqrt (2 * Real.pi)) ^ (k + 2) := by
  unfold maxOver
  by_cases h : s.Nonempty
  · rw [dif_pos h, dif_pos h]
    apply le_antisymm
    · refine Finset.sup'_le h _ fun p hp => ?_
      rw [density_cuGauss]
      exact mul_le_mul_of_nonneg_right (Finset.le_sup' (density gauss cin bw radii) hp) (gammaPow_pos _).le
    · obtain ⟨p, hp, e⟩ := Finset.exists_mem_eq_sup' h (density gauss cin bw radii)
      rw [e, ← density_cuGauss]
      exact Finset.le_sup' (density cuGauss cin bw radii) hp
  · rw [dif_neg h, dif_neg h, zero_mul]

/-- **C108, PointConv.** For every schedule of every kernel, the layer on the GPU
returns exactly the output of the TensorFlow implementation: the density enters
only relative to the maximum of the neighbourhood, so that the constant of the
kernel cancels. -/
theorem C108_pointconv_partial (act : ℝ → ℝ) (Ws : ℕ) (dev : Device) (eps : ℝ) (L : PCLayer ℝ)
    (cin cout : Cloud (Fin (k + 2) → ℝ)) (radius bw : ℝ) (hok : LayerOk cin cout radius eps)
    (hW : 0 < Ws) (hin : 0 < cin.n) (hn : 0 < cout.n) (hone : cin.n ≤ 512 + Ws * 64)
    (hone' : cout.n ≤ 512 + Ws * 64)
    (hdim : k ≤ 1 ∨ 3 ≤ (⟨cin, fun _ => radius, eps⟩ : Grid (k + 2) ℝ).numCells (Fin.last _))
    (hb : opBasisOk L.hid = true) (hf : opFeaturesOk L.cin = true) (f : Fin cin.n → ℕ → ℝ)
    (out tf : Fin cout.n → ℕ → ℝ) (h : L.GpuCall act Ws eps cin cout radius bw f out)
    (htf : L.call gauss act dev eps cin cout radius bw f = .ok tf) : out = tf := by
  obtain ⟨nb, pdf, wf, h1, h2, h3, rfl⟩ := h
  obtain ⟨g1, g2, g3⟩ := gpuIds_spec Ws cin cout radius eps hok.radius_pos hW hn hone' nb h1
  have hp := gpuPdf_spec Ws cin radius eps bw hok.radius_pos hW hin hone hdim nb pdf h2
  funext c o
  rw [C41_pointconv_formula gauss act dev eps L cin cout radius bw hok f tf htf c o]
  have hh : 0 < L.hid := by
    rcases Nat.eq_zero_or_pos L.hid with h | h
    · rw [h] at hb; exact absurd hb (by decide)
    · exact h
  have e1 : ∑ x ∈ Finset.range (L.cin * L.hid), wf c (x / L.hid) (x % L.hid) * L.weights x o =
      L.conv act (k + 2) (gpuIds (⟨cin, fun _ => radius, eps⟩ : Grid (k + 2) ℝ) nb)
        (fun j => rowOf (fun d => cin.pts (List.get _ j).1 d - cout.pts (List.get _ j).2 d))
        (fun j => pdf.getD j.val 0) f c o := by
    unfold PCLayer.conv
    dsimp only
    refine Finset.sum_congr rfl fun x hx => ?_
    rw [Finset.mem_range] at hx
    rw [gpuProj_spec _ _ g1 _ _ hb hf _ _ _ h3 c _ _ ((Nat.div_lt_iff_lt_mul hh).mpr hx) (Nat.mod_lt x hh)]
  rw [e1]
  simp only [hp]
  refine (pcConv_eq act L (k + 2) _ (g2 hdim)
    (fun p c => rowOf (fun d => cin.pts p d - cout.pts c d))
    (fun p => density cuGauss cin (fun _ => bw) (fun _ => radius) p) f c o).trans ?_
  rw [g3 c]
  unfold pcSpec
  refine Finset.sum_congr rfl fun p _ => Finset.sum_congr rfl fun ch _ => Finset.sum_congr rfl fun hh _ => ?_
  rw [maxOver_cuGauss, density_cuGauss, mul_div_mul_right _ _ (gammaPow_pos (k + 2)).ne', pdfTransform_eq]

/-- The reshape only uses entries of the projection's result. -/
theorem kpReshape_eq {n m : ℕ} (cin nk nkp : ℕ) (pairs : List (Fin n × Fin m)) (w : Fin pairs.length → ℕ → ℝ)
    (f : Fin n → ℕ → ℝ) (wf : Fin m → ℕ → ℕ → ℝ)
    (hwf : ∀ c ch b, ch < cin → b < nkp + padCols nk → wf c ch b = basisProj pairs (fun j => padRow nkp (w j)) f c ch b)
    (hcin : 0 < cin) (hcols : 0 < nkp + padCols nk) :
    kpReshape cin nk nkp wf = kpProject cin nk nkp pairs w f := by
  unfold kpReshape kpProject
  dsimp only
  by_cases h0 : cin * nk = 0 ∨ (m * (cin * min nk (nkp + padCols nk))) % (cin * nk) ≠ 0
  · rw [if_pos h0, if_pos h0]
  · rw [if_neg h0, if_neg h0]
    have hnk : 0 < nk := by
      rcases Nat.eq_zero_or_pos nk with h | h
      · exact absurd (Or.inl (by rw [h, Nat.mul_zero])) h0
      · exact h
    congr 2
    funext r x
    by_cases h1 : (r * (cin * nk) + x) / (cin * min nk (nkp + padCols nk)) < m
    · rw [dif_pos h1, dif_pos h1]
      refine hwf _ _ _ (Nat.mod_lt _ hcin) ?_
      exact lt_of_lt_of_le (Nat.mod_lt _ (by omega)) (min_le_right _ _)
    · rw [dif_neg h1, dif_neg h1]

/-- The layer's projections on the GPU, given the pairs. -/
theorem gpuKpConv_eq {D : ℕ} (L : KPLayer D) (sigma : ℝ) {n m : ℕ} (pairs : List (Fin n × Fin m)) (ranges : List ℕ)
    (hd : RangesDelimit ranges pairs) (hb : opBasisOk (L.nkp + padCols L.nk) = true)
    (hf : opFeaturesOk L.cin = true) (input : Fin pairs.length → Fin D → ℝ) (f : Fin n → ℕ → ℝ)
    (res : Except Err (ℕ × (ℕ → ℕ → ℝ))) (h : L.GpuConv sigma pairs ranges input f res) :
    res = L.conv sigma pairs input f := by
  have hcin : 0 < L.cin := by
    rcases Nat.eq_zero_or_pos L.cin with h | h
    · rw [h] at hf; exact absurd hf (by decide)
    · exact h
  have hcols : 0 < L.nkp + padCols L.nk := by
    rcases Nat.eq_zero_or_pos (L.nkp + padCols L.nk) with h | h
    · rw [h] at hb; exact absurd hb (by decide)
    · exact h
  obtain ⟨off, ho, hres⟩ := h
  have hoff : off = L.offsets sigma pairs input f := by
    unfold KPLayer.GpuOffsets at ho
    unfold KPLayer.offsets
    cases hw : L.offs with
    | none => rw [hw] at ho; exact ho
    | some wo =>
      rw [hw] at ho
      dsimp only at ho ⊢
      by_cases hne : L.nk ≠ L.nkp
      · rw [if_pos hne] at ho ⊢; exact ho
      · rw [if_neg hne] at ho ⊢
        obtain ⟨wf, h1, h2⟩ := ho
        rw [h2, kpReshape_eq L.cin L.nk L.nkp pairs _ f wf
          (fun c ch b hch hb' => gpuProj_spec pairs ranges hd _ _ hb hf _ _ _ h1 c ch b hch hb') hcin hcols]
        rfl
  unfold KPLayer.conv
  rw [← hoff]
  cases off with
  | error e => exact hres
  | ok off =>
    obtain ⟨wf, h1, h2⟩ := hres
    rw [h2, kpReshape_eq L.cin L.nk L.nkp pairs _ f wf
      (fun c ch b hch hb' => gpuProj_spec pairs ranges hd _ _ hb hf _ _ _ h1 c ch b hch hb') hcin hcols]
    rfl

/-- **C108, KPConv**, rigid or deformable: for every schedule of every kernel, the
layer on the GPU returns one row per output point with exactly the values of the
TensorFlow implementation. -/
theorem C108_kpconv_partial (Ws : ℕ) (dev : Device) (eps : ℝ) (L : KPLayer (k + 2))
    (cin cout : Cloud (Fin (k + 2) → ℝ)) (radius : ℝ) (hok : LayerOk cin cout radius eps)
    (influence : Option ℝ) (hnk : 0 < L.nk) (hnk' : L.nk ≤ 64) (hkp : L.nkp = L.nk)
    (hW : 0 < Ws) (hn : 0 < cout.n) (hone : cout.n ≤ 512 + Ws * 64)
    (hdim : k ≤ 1 ∨ 3 ≤ (⟨cin, fun _ => radius, eps⟩ : Grid (k + 2) ℝ).numCells (Fin.last _))
    (hf : opFeaturesOk L.cin = true) (f : Fin cin.n → ℕ → ℝ)
    (res : Except Err (ℕ × (ℕ → ℕ → ℝ))) (tf : ℕ × (ℕ → ℕ → ℝ))
    (h : L.GpuCall Ws eps cin cout radius influence f res)
    (htf : L.call dev eps cin cout radius influence f = .ok tf) :
    ∃ out, res = .ok (cout.n, out) ∧ tf.1 = cout.n ∧ ∀ (c : Fin cout.n) (o : ℕ), out c.val o = tf.2 c.val o := by
  obtain ⟨nb, h1, h2⟩ := h
  obtain ⟨g1, g2, g3⟩ := gpuIds_spec Ws cin cout radius eps hok.radius_pos hW hn hone nb h1
  have hcin : 0 < L.cin := by
    rcases Nat.eq_zero_or_pos L.cin with h | h
    · rw [h] at hf; exact absurd hf (by decide)
    · exact h
  have h3 := gpuKpConv_eq L _ _ _ g1 (by rw [hkp]; exact (C39_padded_count L.nk).mpr hnk') hf _ f res h2
  obtain ⟨out, ho, hv⟩ := kpConv_eq L (kpSigma influence radius) hcin hnk hkp _ (g2 hdim) (nbrs cin cout radius) g3
    (fun p c d => (cin.pts p d - cout.pts c d) / radius) f
  obtain ⟨t1, t2⟩ := kp_call_spec hok hcin hnk hkp htf
  refine ⟨out, h3.trans ho, t1, fun c o => ?_⟩
  rw [t2 c o]
  rw [hv c o]
  rfl

/-! ## the layers have runs -/

/-- Every call of the layers has a run. -/
theorem C108_mcconv_runs (act : ℝ → ℝ) (Ws : ℕ) (eps : ℝ) (L : MCLayer ℝ) (cin cout : Cloud (Fin (k + 2) → ℝ))
    (radius bw : ℝ) (hr : 0 < radius) (hW : 0 < Ws) (hin : 0 < cin.n) (hn : 0 < cout.n)
    (hone : cin.n ≤ 512 + Ws * 64) (hone' : cout.n ≤ 512 + Ws * 64) (f : Fin cin.n → ℕ → ℝ) :
    ∃ out, L.GpuCall act Ws eps cin cout radius bw f out := by
  obtain ⟨nb, h1⟩ := gpuFind_exists Ws (⟨cin, fun _ => radius, eps⟩ : Grid (k + 2) ℝ) cout (fun _ => radius)
    (fun _ => hr) (fun _ => le_rfl) hW hn hone'
  obtain ⟨pdf, h2⟩ := gpuPdf_exists Ws cin radius eps bw hr hW hin hone nb
  obtain ⟨wf, h3⟩ := gpuProj_exists (gpuIds (⟨cin, fun _ => radius, eps⟩ : Grid (k + 2) ℝ) nb) nb.ranges L.cin
    (L.mlps * L.hid) (fun j => L.basis act (k + 2) (rowOf (fun d => (cin.pts (List.get _ j).1 d -
      cout.pts (List.get _ j).2 d) / radius)) (pdf.getD j.val 0)) f
  exact ⟨_, nb, pdf, wf, h1, h2, h3, rfl⟩

theorem C108_pointconv_runs (act : ℝ → ℝ) (Ws : ℕ) (eps : ℝ) (L : PCLayer ℝ) (cin cout : Cloud (Fin (k + 2) → ℝ))
    (radius bw : ℝ) (hr : 0 < radius) (hW : 0 < Ws) (hin : 0 < cin.n) (hn : 0 < cout.n)
    (hone : cin.n ≤ 512 + Ws * 64) (hone' : cout.n ≤ 512 + Ws * 64) (f : Fin cin.n → ℕ → ℝ) :
    ∃ out, L.GpuCall act Ws eps cin cout radius bw f out := by
  obtain ⟨nb, h1⟩ := gpuFind_exists Ws (⟨cin, fun _ => radius, eps⟩ : Grid (k + 2) ℝ) cout (fun _ => radius)
    (fun _ => hr) (fun _ => le_rfl) hW hn hone'
  obtain ⟨pdf, h2⟩ := gpuPdf_exists Ws cin radius eps bw hr hW hin hone nb
  obtain ⟨wf, h3⟩ := gpuProj_exists _ nb.ranges L.cin L.hid _ f
  exact ⟨_, nb, pdf, wf, h1, h2, h3, rfl⟩

theorem C108_kpconv_runs (Ws : ℕ) (eps : ℝ) (L : KPLayer (k + 2)) (cin cout : Cloud (Fin (k + 2) → ℝ))
    (radius : ℝ) (influence : Option ℝ) (hr : 0 < radius) (hW : 0 < Ws) (hn : 0 < cout.n)
    (hone : cout.n ≤ 512 + Ws * 64) (f : Fin cin.n → ℕ → ℝ) :
    ∃ res, L.GpuCall Ws eps cin cout radius influence f res := by
  obtain ⟨nb, h1⟩ := gpuFind_exists Ws (⟨cin, fun _ => radius, eps⟩ : Grid (k + 2) ℝ) cout (fun _ => radius)
    (fun _ => hr) (fun _ => le_rfl) hW hn hone
  have hoff : ∀ {n m : ℕ} (pairs : List (Fin n × Fin m)) (ranges : List ℕ) (input : Fin pairs.length → Fin (k + 2) → ℝ)
      (f : Fin n → ℕ → ℝ), ∃ off, L.GpuOffsets (kpSigma influence radius) pairs ranges input f off := by
    intro n m pairs ranges input f
    unfold KPLayer.GpuOffsets
    cases L.offs with
    | none => exact ⟨_, rfl⟩
    | some wo =>
      dsimp only
      by_cases hne : L.nk ≠ L.nkp
      · exact ⟨_, by rw [if_pos hne]⟩
      · obtain ⟨wf, h⟩ := gpuProj_exists pairs ranges L.cin (L.nkp + padCols L.nk)
          (fun j => padRow L.nkp (L.weightRow (kpSigma influence radius) (input j) (fun _ _ => 0))) f
        exact ⟨_, by rw [if_neg hne]; exact ⟨wf, h, rfl⟩⟩
  obtain ⟨off, h2⟩ := hoff (gpuIds (⟨cin, fun _ => radius, eps⟩ : Grid (k + 2) ℝ) nb) nb.ranges
    (fun j d => (cin.pts (List.get _ j).1 d - cout.pts (List.get _ j).2 d) / radius) f
  cases off with
  | error e => exact ⟨_, nb, h1, _, h2, rfl⟩
  | ok off =>
    obtain ⟨wf, h3⟩ := gpuProj_exists _ nb.ranges L.cin (L.nkp + padCols L.nk) _ f
    exact ⟨_, nb, h1, _, h2, wf, h3, rfl⟩

end

/-! ## four dimensions -/

/-- Four points on a line along the third of four dimensions, in three cells. -/
abbrev exDup4 : Grid 4 ℚ :=
  ⟨⟨4, fun i d => if d = 2 then (![0, 3 / 4, 5 / 4, 5 / 2] : Fin 4 → ℚ) i else 0, fun _ => 0, 1⟩, fun _ => 1, 1 / 100⟩

abbrev exDup4Tab : ℤ → ℕ × ℕ :=
  fun s => buildDsResult (buildDsThreads (cuNc exDup4) (cuSortedKeys exDup4) exDup4.c.n 1).flatten s

/-- The third point as the only centre. -/
abbrev exDup4Out : Cloud (Fin 4 → ℚ) := ⟨1, fun _ d => if d = 2 then 5 / 4 else 0, fun _ => 0, 1⟩

/-- 1 at the third point, 0 elsewhere. -/
abbrev exDup4F : Fin 4 → ℕ → ℚ := fun i _ => if i = 2 then 1 else 0

/-- A run of average pooling on these points returns 3/5: the centre is counted
three times and its neighbour twice. -/
theorem exDup4_run : GpuPool 1 .mean (1 / 100) exDup4.c exDup4Out 1 exDup4F (fun _ _ => some (3 / 5)) := by
  have htab : BuiltTable exDup4 exDup4Tab := ⟨1, _, one_pos, Interleave.exists_seq _, rfl⟩
  obtain ⟨total, res, hrun⟩ := C58_run_exists 1 offsetsPerBlock 1 1 1 one_pos one_pos (by norm_num)
    ((offsetBlocks 4 1).map (opRanges (Nat.clog 2 exDup4.c.n + 1) exDup4 exDup4Tab exDup4Out.center))
    (opHit exDup4 exDup4Out.center (fun d => (1 : ℚ)⁻¹))
  obtain ⟨nb, h1, h2⟩ := gpuFind_of_run 1 exDup4 exDup4Out (fun _ => 1) (fun _ => one_pos) (fun _ => le_rfl) one_pos
    one_pos (by norm_num) exDup4Tab htab total res hrun
  obtain ⟨e1, e2, e3, e4⟩ := findRun_spec 1 offsetsPerBlock 1 1 1 one_pos one_pos one_pos (by decide) one_pos
    (by norm_num) _ _ total res hrun
  have hA := allFinds_eq exDup4 exDup4Tab htab exDup4Out.center (fun d => (1 : ℚ)⁻¹) (Nat.clog 2 exDup4.c.n + 1)
    le_rfl 0
  have hB : cuNeighborsOf (Nat.clog 2 exDup4.c.n + 1) exDup4 exDup4Tab (exDup4Out.center 0).1 (exDup4Out.center 0).2
      (fun d => (1 : ℚ)⁻¹) = some [1, 3, 1, 3, 1] := by decide +kernel
  have hC := Option.some.inj (hA.symm.trans hB)
  have hD := e4 0 one_pos
  rw [hC] at hD
  rw [Finset.sum_range_one, hC] at e1
  rw [Finset.sum_range_zero] at hD
  have hE : (nb.pairs.map (fun p => (p.1.val, p.2.val))).Perm [(1, 0), (3, 0), (1, 0), (3, 0), (1, 0)] := by
    rw [h2, e1, List.range_eq_range']
    exact hD
  refine ⟨nb, h1, ?_⟩
  funext c ch
  show some (3 / 5 : ℚ) = some (segMean _ _ c.val)
  congr 1
  unfold segMean
  have hs : segRows (fun j => ((gpuIds exDup4 nb).get j).2.val) c.val = Finset.univ := by
    ext j
    simp [segRows]
  have hl : (gpuIds exDup4 nb).length = 5 := by
    have := hE.length_eq
    simpa [gpuIds] using this
  have hsum : ∑ j : Fin (gpuIds exDup4 nb).length, exDup4F ((gpuIds exDup4 nb).get j).1 ch = 3 := by
    have e5 : ∀ l : List (Fin 4 × Fin 1), ∑ j : Fin l.length, exDup4F (l.get j).1 ch =
        (l.map (fun p => exDup4F p.1 ch)).sum := by
      intro l
      exact Fin.sum_univ_fun_getElem l (fun p => exDup4F p.1 ch)
    rw [e5]
    let F : ℕ × ℕ → ℚ := fun i => if h : i.1 < 4 then exDup4F (cuPerm exDup4 ⟨i.1, h⟩) ch else 0
    have e6 : (gpuIds exDup4 nb).map (fun p => exDup4F p.1 ch) =
        (nb.pairs.map (fun p => (p.1.val, p.2.val))).map F := by
      simp only [gpuIds, List.map_map]
      refine List.map_congr_left fun p _ => ?_
      simp only [Function.comp, F]
      rw [dif_pos p.1.isLt]
    rw [e6, (hE.map F).sum_eq]
    have e7 : cuPerm exDup4 1 = 2 := by decide +kernel
    have e8 : cuPerm exDup4 3 = 1 := by decide +kernel
    have f1 : F (1, 0) = 1 := by
      show (if h : 1 < 4 then exDup4F (cuPerm exDup4 ⟨1, h⟩) ch else 0) = 1
      rw [dif_pos (by norm_num)]
      show exDup4F (cuPerm exDup4 1) ch = 1
      rw [e7]; rfl
    have f3 : F (3, 0) = 0 := by
      show (if h : 3 < 4 then exDup4F (cuPerm exDup4 ⟨3, h⟩) ch else 0) = 0
      rw [dif_pos (by norm_num)]
      show exDup4F (cuPerm exDup4 3) ch = 0
      rw [e8]; rfl
    simp only [List.map_cons, List.map_nil, f1, f3]
    norm_num
  have hcard : (Finset.univ : Finset (Fin (gpuIds exDup4 nb).length)).card = 5 := by
    rw [Finset.card_univ, Fintype.card_fin, hl]
  have hmain : (3 / 5 : ℚ) = (∑ j ∈ segRows (fun j => ((gpuIds exDup4 nb).get j).2.val) c.val,
      exDup4F ((gpuIds exDup4 nb).get j).1 ch) /
      ((max (segRows (fun j => ((gpuIds exDup4 nb).get j).2.val) c.val).card 1 : ℕ) : ℚ) := by
    rw [hs, hsum, hcard]
    norm_num
  exact hmain

/-- **C108 fails for average pooling in four and more dimensions**: a run on four
points returns 3/5 where the TensorFlow implementation returns 1/2. -/
theorem C108_mean_pool_false : ¬ ∀ (k : ℕ) (Ws : ℕ) (dev : Device) (cin cout : Cloud (Fin (k + 2) → ℚ)) (radius eps : ℚ),
    cin.Valid → 0 < radius → 0 < eps → 0 < Ws → 0 < cout.n → cout.n ≤ 512 + Ws * 64 →
    ∀ (f : Fin cin.n → ℕ → ℚ) (out tf : Fin cout.n → ℕ → Option ℚ), GpuPool Ws .mean eps cin cout radius f out →
      localPool .mean dev eps cin cout (.vec [radius]) f = .ok tf → out = tf := by
  intro h
  obtain ⟨tf, htf, h2⟩ : ∃ tf, localPool .mean .gpu (1 / 100) exDup4.c exDup4Out (.vec [1]) exDup4F = .ok tf ∧ tf 0 0 = some (1 / 2) := by
    have : (match localPool .mean .gpu (1 / 100) exDup4.c exDup4Out (.vec [1]) exDup4F with
      | .ok tf => decide (tf 0 0 = some (1 / 2))
      | .error _ => false) = true := by
      decide +kernel
    cases hl : localPool .mean .gpu (1 / 100) exDup4.c exDup4Out (.vec [1]) exDup4F with
    | ok tf => rw [hl] at this; exact ⟨tf, rfl, of_decide_eq_true this⟩
    | error e => rw [hl] at this; exact absurd this Bool.false_ne_true
  have h1 := h 2 1 .gpu exDup4.c exDup4Out 1 (1 / 100) (by intro i; decide +revert +kernel) one_pos (by norm_num) one_pos
    one_pos (by norm_num) exDup4F _ tf exDup4_run htf
  rw [← h1] at h2
  revert h2
  decide +kernel

/-! ## the hypotheses can be met -/

/-- Three points in three dimensions, the third far away. -/
noncomputable abbrev exGpuIn : Cloud (Fin 3 → ℝ) := ⟨3, fun i _ => (i.val : ℝ) ^ 2 / 4, fun _ => 0, 1⟩

noncomputable abbrev exGpuMC : MCLayer ℝ := ⟨3, 4, 2, [⟨4, fun _ _ _ => 1, fun _ _ => 1⟩], fun _ _ _ => 1⟩

theorem exGpu_ok : LayerOk exGpuIn exGpuIn 1 (1 / 100) :=
  ⟨fun _ => Nat.zero_lt_one, one_pos, by norm_num⟩

/-- A layer and a cloud to which `C108_mcconv_partial` applies; both
implementations have a result. -/
example (f : Fin 3 → ℕ → ℝ) : ∃ out tf γ, exGpuMC.GpuCall id 1 (1 / 100) exGpuIn exGpuIn 1 (1 / 4) f out ∧
    exGpuMC.call gauss id .gpu (1 / 100) exGpuIn exGpuIn 1 (1 / 4) f = .ok tf ∧
    |γ - 1| ≤ 2 / 10 ^ 8 ∧ ∀ (c : Fin 3) (o : ℕ), o < 4 → out c o * γ = tf c o := by
  obtain ⟨out, h1⟩ := C108_mcconv_runs (k := 1) id 1 (1 / 100) exGpuMC exGpuIn exGpuIn 1 (1 / 4) one_pos one_pos
    (by norm_num) (by norm_num) (by norm_num) (by norm_num) f
  obtain ⟨tf, h2⟩ := C41_mcconv_returns (k := 1) gauss id (1 / 100) exGpuMC exGpuIn exGpuIn 1 (1 / 4) exGpu_ok
    (by norm_num) (by norm_num) (fun _ => Nat.zero_lt_one) f
  obtain ⟨γ, h3, h4⟩ := C108_mcconv_partial (k := 1) id 1 .gpu (1 / 100) exGpuMC exGpuIn exGpuIn 1 (1 / 4) exGpu_ok
    (by norm_num) one_pos (by norm_num) (by norm_num) (by norm_num) (by norm_num) (Or.inl le_rfl) (by norm_num)
    (by norm_num) (by decide) (by decide) f out tf h1 h2
  exact ⟨out, tf, γ, h1, h2, h3, h4⟩

/-- A deformable layer with 13 kernel points to which `C108_kpconv_partial` applies. -/
noncomputable abbrev exGpuKP : KPLayer 3 := ⟨8, 13, 13, fun b d => b - d.val, .linear, fun _ _ => 1, some fun _ _ => 1⟩

example (f : Fin 3 → ℕ → ℝ) : ∃ out tf, exGpuKP.GpuCall 1 (1 / 100) exGpuIn exGpuIn 1 none f (.ok (3, out)) ∧
    exGpuKP.call .gpu (1 / 100) exGpuIn exGpuIn 1 none f = .ok tf ∧
    ∀ (c : Fin 3) (o : ℕ), out c.val o = tf.2 c.val o := by
  obtain ⟨res, h1⟩ := C108_kpconv_runs (k := 1) 1 (1 / 100) exGpuKP exGpuIn exGpuIn 1 none one_pos one_pos
    (by norm_num) (by norm_num) f
  obtain ⟨tf, h2⟩ := C41_kpconv_returns (k := 1) (1 / 100) exGpuKP exGpuIn exGpuIn 1 exGpu_ok none (by norm_num)
    (by norm_num) rfl (by norm_num) (fun _ => Nat.zero_lt_one) f
  obtain ⟨out, h3, _, h4⟩ := C108_kpconv_partial (k := 1) 1 .gpu (1 / 100) exGpuKP exGpuIn exGpuIn 1 exGpu_ok none
    (by norm_num) (by norm_num) rfl one_pos (by norm_num) (by norm_num) (Or.inl le_rfl) (by decide) f res _ h1 h2
  subst h3
  exact ⟨out, _, h1, h2, h4⟩

end PC
