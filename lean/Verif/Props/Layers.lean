import Verif.Layers
import Verif.Props.Pdf

/-!
# Properties C38–C42: basis projection and convolution layers
-/

set_option linter.unusedVariables false
set_option linter.unusedSectionVars false

namespace PC

@[simp] theorem gatherD_fin {β : Type*} [Zero β] {n : ℕ} (x : Fin n → β) (i : Fin n) :
    gatherD x i.val = x i := by
  simp [gatherD]

/-- Sum over a row-major flattened index. -/
theorem sum_range_flat {M : Type*} [AddCommMonoid M] (a b : ℕ) (g : ℕ → M) :
    ∑ x ∈ Finset.range (a * b), g x = ∑ i ∈ Finset.range a, ∑ j ∈ Finset.range b, g (i * b + j) := by
  induction a with
  | zero => simp
  | succ a ih => rw [Nat.succ_mul, Finset.sum_range_add, ih, Finset.sum_range_succ]

section
variable {K : Type*} [Field K]

/-! ## C38 -/

/-- Sum over the pairs of a centre, as computed by `unsorted_segment_sum`. -/
theorem segSum_pairs {n m : ℕ} (pairs : List (Fin n × Fin m)) (hnd : pairs.Nodup)
    (g : Fin n → Fin m → K) (c : Fin m) :
    segSum (fun j : Fin pairs.length => g (pairs.get j).1 (pairs.get j).2)
      (fun j => (pairs.get j).2.val) c.val =
      ∑ p ∈ Finset.univ.filter (fun p => (p, c) ∈ pairs), g p c := by
  unfold segSum
  apply Finset.sum_bij (fun j _ => (pairs.get j).1)
  · intro j hj
    simp only [mem_segRows, Fin.val_inj] at hj
    simp only [Finset.mem_filter, Finset.mem_univ, true_and]
    have : pairs.get j = ((pairs.get j).1, c) := by rw [← hj]
    rw [← this]
    exact List.get_mem _ _
  · intro j hj j' hj' he
    simp only [mem_segRows, Fin.val_inj] at hj hj'
    have : pairs.get j = pairs.get j' := by
      apply Prod.ext he
      rw [hj, hj']
    exact (List.nodup_iff_injective_get.mp hnd) this
  · intro p hp
    simp only [Finset.mem_filter, Finset.mem_univ, true_and] at hp
    obtain ⟨j, hj⟩ := List.mem_iff_get.mp hp
    refine ⟨j, ?_, by rw [hj]⟩
    simp only [mem_segRows, Fin.val_inj]
    rw [hj]
  · intro j hj
    simp only [mem_segRows, Fin.val_inj] at hj
    rw [hj]

/-- **C38, formula.** `basis_proj` returns at centre `c`, channel `ch`, basis `b`
the sum over the neighbours `p` of `c` of `feature[p, ch] * basis[(p, c), b]`;
it does not depend on the order of the neighbour list. -/
theorem C38_basis_proj {ι κ : Type*} {n m : ℕ} (pairs : List (Fin n × Fin m)) (hnd : pairs.Nodup)
    (B : Fin n → Fin m → κ → K) (f : Fin n → ι → K) (c : Fin m) (ch : ι) (b : κ) :
    basisProj pairs (fun j => B (pairs.get j).1 (pairs.get j).2) f c ch b =
      ∑ p ∈ Finset.univ.filter (fun p => (p, c) ∈ pairs), f p ch * B p c b := by
  unfold basisProj
  simp only [gatherD_fin]
  exact segSum_pairs pairs hnd (fun p c => f p ch * B p c b) c

/-- **C38, order.** Any reordering of the neighbour list (with the basis values
moved along) gives the same projection. -/
theorem C38_order_independent {ι κ : Type*} {n m : ℕ} (pairs pairs' : List (Fin n × Fin m))
    (hnd : pairs.Nodup) (hperm : pairs'.Perm pairs)
    (B : Fin n → Fin m → κ → K) (f : Fin n → ι → K) :
    basisProj pairs (fun j => B (pairs.get j).1 (pairs.get j).2) f =
      basisProj pairs' (fun j => B (pairs'.get j).1 (pairs'.get j).2) f := by
  funext c ch b
  rw [C38_basis_proj pairs hnd B, C38_basis_proj pairs' (hperm.nodup_iff.mpr hnd) B]
  simp only [hperm.mem_iff]

/-- **C38, empty neighbourhoods** give 0. -/
theorem C38_empty {ι κ : Type*} {n m nf : ℕ} (pairs : List (Fin n × Fin m))
    (basis : Fin pairs.length → κ → K) (f : Fin nf → ι → K) (c : Fin m)
    (hc : ∀ p, (p, c) ∉ pairs) (ch : ι) (b : κ) : basisProj pairs basis f c ch b = 0 := by
  unfold basisProj segSum
  rw [Finset.sum_eq_zero]
  intro j hj
  simp only [mem_segRows, Fin.val_inj] at hj
  exfalso
  apply hc (pairs.get j).1
  rw [← hj]
  exact List.get_mem _ _

/-- **C38, linearity in the features.** -/
theorem C38_linear_features {ι κ : Type*} {n m nf : ℕ} (pairs : List (Fin n × Fin m))
    (basis : Fin pairs.length → κ → K) (f g : Fin nf → ι → K) (a a' : K) (c : Fin m) (ch : ι) (b : κ) :
    basisProj pairs basis (fun i x => a * f i x + a' * g i x) c ch b =
      a * basisProj pairs basis f c ch b + a' * basisProj pairs basis g c ch b := by
  unfold basisProj segSum
  rw [Finset.mul_sum, Finset.mul_sum, ← Finset.sum_add_distrib]
  apply Finset.sum_congr rfl
  intro j _
  unfold gatherD
  by_cases hlt : (pairs.get j).1.val < nf
  · simp only [dif_pos hlt]; ring
  · simp only [dif_neg hlt, Pi.zero_apply]; ring

/-- **C38, linearity in the basis values.** -/
theorem C38_linear_basis {ι κ : Type*} {n m nf : ℕ} (pairs : List (Fin n × Fin m))
    (b₁ b₂ : Fin pairs.length → κ → K) (f : Fin nf → ι → K) (a a' : K) (c : Fin m) (ch : ι) (b : κ) :
    basisProj pairs (fun j x => a * b₁ j x + a' * b₂ j x) f c ch b =
      a * basisProj pairs b₁ f c ch b + a' * basisProj pairs b₂ f c ch b := by
  unfold basisProj segSum
  rw [Finset.mul_sum, Finset.mul_sum, ← Finset.sum_add_distrib]
  apply Finset.sum_congr rfl
  intro j _
  ring

end

section
variable {K : Type*} [Field K] [LinearOrder K] [IsStrictOrderedRing K] [FloorRing K] {k : ℕ}

/-- Specification: the points of `cin` within the radius of point `c` of `cout`,
in the same batch element. -/
def nbrs {D : ℕ} (cin cout : Cloud (Fin D → K)) (radius : K) (c : Fin cout.n) : Finset (Fin cin.n) :=
  Finset.univ.filter (fun p => cin.batch p = cout.batch c ∧
    normLt (fun d => cin.pts p d - cout.pts c d) radius)

theorem mem_nbrs {D : ℕ} (cin cout : Cloud (Fin D → K)) (radius : K) (c : Fin cout.n) (p : Fin cin.n) :
    p ∈ nbrs cin cout radius c ↔ IsNeighbor cin cout radius p c := by
  simp [nbrs, IsNeighbor]

/-- The neighbourhood a layer builds, taken apart. -/
theorem layerNbh_eq {dev : Device} {eps : K} {cin cout : Cloud (Fin (k + 2) → K)} {radius : K} {h : Nbh k K}
    (hl : layerNbh dev eps cin cout radius = .ok h) :
    ∃ nb : Pairs cin.n cout.n, h = ⟨⟨cin, fun _ => radius, eps⟩, fun _ => radius, cout, false, nb⟩ ∧
      findNeighbors dev (⟨cin, fun _ => radius, eps⟩ : Grid (k + 2) K) cout (fun _ => radius) = .ok nb := by
  unfold layerNbh Nbh.new at hl
  dsimp only at hl
  split at hl
  · simp at hl
  · rename_i nb hnb
    simp only [Except.ok.injEq] at hl
    exact ⟨nb, hl.symm, hnb⟩

/-- Assumptions under which a layer call without neighbourhood is considered:
batch ids below the batch size, positive radius, `eps > 0`. -/
structure LayerOk {D : ℕ} (cin cout : Cloud (Fin D → K)) (radius eps : K) : Prop where
  valid : cin.Valid
  radius_pos : 0 < radius
  eps_pos : 0 < eps

theorem layer_regular {cin cout : Cloud (Fin (k + 2) → K)} {radius eps : K}
    (hok : LayerOk cin cout radius eps) (s : Cloud (Fin (k + 2) → K)) (e : Bool) (nb : Pairs cin.n s.n) :
    Regular (⟨⟨cin, fun _ => radius, eps⟩, fun _ => radius, s, e, nb⟩ : Nbh k K) :=
  ⟨hok.valid, hok.radius_pos, fun _ => le_refl _, rfl, hok.eps_pos⟩

/-- Original ids of the layer's neighbourhood = geometric neighbours. -/
theorem layer_ids {dev : Device} {eps : K} {cin cout : Cloud (Fin (k + 2) → K)} {radius : K}
    (hok : LayerOk cin cout radius eps) {nb : Pairs cin.n cout.n}
    (hf : findNeighbors dev (⟨cin, fun _ => radius, eps⟩ : Grid (k + 2) K) cout (fun _ => radius) = .ok nb) :
    let h : Nbh k K := ⟨⟨cin, fun _ => radius, eps⟩, fun _ => radius, cout, false, nb⟩
    (∀ (p : Fin cin.n) (c : Fin cout.n), (p, c) ∈ h.originalNeighIds ↔ p ∈ nbrs cin cout radius c) ∧
      h.originalNeighIds.Nodup := by
  intro h
  have hnew : Nbh.new dev (⟨cin, fun _ => radius, eps⟩ : Grid (k + 2) K) (fun _ => radius) (some cout) = .ok h := by
    unfold Nbh.new
    simp only
    rw [hf]
  obtain ⟨h1, h2, h3⟩ := C20_original_ids dev _ _ _ h hnew
  refine ⟨fun p c => ⟨fun hp => ?_, fun hp => ?_⟩, h2⟩
  · rw [mem_nbrs]; exact h1 p c hp
  · rw [mem_nbrs] at hp; exact h3 (layer_regular hok _ _ _) p c hp

/-- **C38 for a layer's neighbourhood.** The projection sums over exactly the
points within the radius in the same batch element. -/
theorem C38_geometric {ι κ : Type*} {dev : Device} {eps : K} {cin cout : Cloud (Fin (k + 2) → K)} {radius : K}
    (hok : LayerOk cin cout radius eps) {nb : Pairs cin.n cout.n}
    (hf : findNeighbors dev (⟨cin, fun _ => radius, eps⟩ : Grid (k + 2) K) cout (fun _ => radius) = .ok nb)
    (h : Nbh k K) (hh : h = ⟨⟨cin, fun _ => radius, eps⟩, fun _ => radius, cout, false, nb⟩)
    (B : Fin h.g.c.n → Fin h.sample.n → κ → K) (f : Fin h.g.c.n → ι → K) (c : Fin h.sample.n) (ch : ι) (b : κ) :
    basisProj h.originalNeighIds
      (fun j => B (h.originalNeighIds.get j).1 (h.originalNeighIds.get j).2) f c ch b =
      ∑ p ∈ nbrs h.g.c h.sample radius c, f p ch * B p c b := by
  subst hh
  obtain ⟨h1, h2⟩ := layer_ids hok hf
  rw [C38_basis_proj _ h2 B]
  apply Finset.sum_congr _ (fun _ _ => rfl)
  ext p
  simp only [Finset.mem_filter, Finset.mem_univ, true_and]
  exact h1 p c

theorem originalNeighIds_get (h : Nbh k K) (j : Fin h.originalNeighIds.length)
    (hj : j.val < h.nb.pairs.length) :
    (h.originalNeighIds.get j).1 = h.g.perm (h.nb.pairs[j.val]).1 := by
  have : ∀ {α β : Type _} (l : List α) (f : α → β) (l' : List β) (hl : l' = l.map f)
      (j : Fin l'.length) (hj : j.val < l.length), l'.get j = f (l[j.val]) := by
    intro α β l f l' hl j hj
    subst hl
    simp
  rw [this h.nb.pairs (fun p => (h.g.perm p.1, p.2)) h.originalNeighIds rfl j hj]

/-- Densities attached to the pairs of a layer's neighbourhood. -/
theorem layer_pdf {ker : K → K} {dev : Device} {eps : K} {cin cout : Cloud (Fin (k + 2) → K)} {radius : K}
    (hok : LayerOk cin cout radius eps) {nb : Pairs cin.n cout.n}
    (h : Nbh k K) (hh : h = ⟨⟨cin, fun _ => radius, eps⟩, fun _ => radius, cout, false, nb⟩)
    (bw : K) (l : List K)
    (hl : (h.runGet ker dev none ⟨fun _ => bw, .constant, false⟩).1 = .ok l)
    (j : Fin h.originalNeighIds.length) :
    l.getD j.val 0 = density ker h.g.c (fun _ => bw) (fun _ => radius) (h.originalNeighIds.get j).1 := by
  have hreg : ∀ s e nb, Regular (⟨⟨cin, fun _ => radius, eps⟩, fun _ => radius, s, e, nb⟩ : Nbh k K) :=
    fun s e nb => layer_regular hok s e nb
  subst hh
  unfold Nbh.runGet at hl
  dsimp only at hl
  split at hl
  · simp at hl
  · rename_i l' hl'
    simp only [Except.ok.injEq] at hl
    subst hl
    unfold Nbh.computePdf Nbh.rawPdf at hl'
    simp only [reduceCtorEq, if_false, Bool.false_eq_true] at hl'
    cases hself : Nbh.new dev (⟨cin, fun _ => radius, eps⟩ : Grid (k + 2) K) (fun _ => radius) none with
    | error e => rw [hself] at hl'; simp at hl'
    | ok self =>
      rw [hself] at hl'
      simp only [Except.ok.injEq] at hl'
      subst hl'
      obtain ⟨e1, e2, e3, e4, hf⟩ := new_pairs hself
      obtain ⟨g', r', s', q', nb'⟩ := self
      simp only at e1 e2
      subst e1 e2
      have hj : j.val < nb.pairs.length := by
        have := j.isLt
        simpa [Nbh.originalNeighIds] using this
      rw [List.getD_eq_getElem?_getD, List.getElem?_map, List.getElem?_eq_getElem hj]
      simp only [Option.map_some, Option.getD_some]
      have hlt : (nb.pairs[j.val]).1.val < cin.n := (nb.pairs[j.val]).1.isLt
      rw [dif_pos hlt]
      refine (C34_density_formula ker dev _ _ _ hself (hreg _ _ _) (fun _ => bw) .constant _).trans ?_
      rw [originalNeighIds_get _ j hj]

end

/-! ## MCConv -/

section
variable {K : Type*} [Field K]

theorem flat_div {b j : ℕ} (i : ℕ) (hj : j < b) : (i * b + j) / b = i := by
  rw [Nat.add_comm, Nat.add_mul_div_right _ _ (by omega), Nat.div_eq_of_lt hj, Nat.zero_add]

theorem flat_mod {b j : ℕ} (i : ℕ) (hj : j < b) : (i * b + j) % b = j := by
  rw [Nat.add_comm, Nat.add_mul_mod_self_right, Nat.mod_eq_of_lt hj]

/-- The convolution of `MCConv` as a sum over neighbours, for kernel inputs and
densities attached to the pairs. -/
theorem mcConv_eq (act : K → K) (L : MCLayer K) (D : ℕ) {n m : ℕ} (pairs : List (Fin n × Fin m))
    (hnd : pairs.Nodup) (I : Fin n → Fin m → ℕ → K) (P : Fin n → K) (f : Fin n → ℕ → K)
    (c : Fin m) (o : ℕ) :
    L.conv act D pairs (fun j => I (pairs.get j).1 (pairs.get j).2) (fun j => P (pairs.get j).1) f c o =
      ∑ p ∈ Finset.univ.filter (fun p => (p, c) ∈ pairs), ∑ ch ∈ Finset.range L.cin,
        ∑ hh ∈ Finset.range L.hid,
          f p ch * (mlpEval act (o / (L.cout / L.mlps)) D L.layers (I p c) hh / P p) *
            L.final (o / (L.cout / L.mlps)) (ch * L.hid + hh) (o % (L.cout / L.mlps)) := by
  unfold MCLayer.conv
  dsimp only
  rw [sum_range_flat, Finset.sum_comm' (t' := Finset.range L.cin) (s' := fun _ => Finset.univ.filter
    (fun p => (p, c) ∈ pairs)) (by intro x y; tauto)]
  apply Finset.sum_congr rfl
  intro ch _
  rw [Finset.sum_comm' (t' := Finset.range L.hid) (s' := fun _ => Finset.univ.filter
    (fun p => (p, c) ∈ pairs)) (by intro x y; tauto)]
  apply Finset.sum_congr rfl
  intro hh hhr
  have hlt := Finset.mem_range.mp hhr
  rw [flat_div _ hlt, flat_mod _ hlt]
  have := C38_basis_proj pairs hnd (fun p c col => L.basis act D (I p c) (P p) col) f c ch
    (o / (L.cout / L.mlps) * L.hid + hh)
  rw [this, Finset.sum_mul]
  apply Finset.sum_congr rfl
  intro p _
  unfold MCLayer.basis
  rw [flat_div _ hlt, flat_mod _ hlt]

end

section
variable {K : Type*} [Field K] [LinearOrder K] [IsStrictOrderedRing K] [FloorRing K] {k : ℕ}

/-- Specification of `MCConv`: the Monte-Carlo estimate of the convolution
integral over the ball around point `c` of `cout`.  Output channel `o` belongs
to MLP `o / (cout/mlps)`. -/
def mcSpec (ker act : K → K) (L : MCLayer K) (cin cout : Cloud (Fin (k + 2) → K)) (radius bw : K)
    (f : Fin cin.n → ℕ → K) (c : Fin cout.n) (o : ℕ) : K :=
  ∑ p ∈ nbrs cin cout radius c, ∑ ch ∈ Finset.range L.cin, ∑ hh ∈ Finset.range L.hid,
    f p ch * (mlpEval act (o / (L.cout / L.mlps)) (k + 2) L.layers
        (rowOf (fun d => (cin.pts p d - cout.pts c d) / radius)) hh /
          density ker cin (fun _ => bw) (fun _ => radius) p) *
      L.final (o / (L.cout / L.mlps)) (ch * L.hid + hh) (o % (L.cout / L.mlps))

/-- **C41, MCConv.** Whatever the device: if the layer returns, its output is
`mcSpec` at every point and channel. -/
theorem C41_mcconv_formula (ker act : K → K) (dev : Device) (eps : K) (L : MCLayer K)
    (cin cout : Cloud (Fin (k + 2) → K)) (radius bw : K) (hok : LayerOk cin cout radius eps)
    (f : Fin cin.n → ℕ → K) (out : Fin cout.n → ℕ → K)
    (h : L.call ker act dev eps cin cout radius bw f = .ok out) (c : Fin cout.n) (o : ℕ) :
    out c o = mcSpec ker act L cin cout radius bw f c o := by
  unfold MCLayer.call at h
  cases hl : layerNbh dev eps cin cout radius with
  | error e => rw [hl] at h; simp at h
  | ok nh =>
    rw [hl] at h
    dsimp only at h
    cases hp : (nh.runGet ker dev none ⟨fun _ => bw, .constant, false⟩).1 with
    | error e => rw [hp] at h; simp at h
    | ok pdf =>
      rw [hp] at h
      simp only [Except.ok.injEq] at h
      subst h
      obtain ⟨nb, hnh, hf⟩ := layerNbh_eq hl
      have hpdf := layer_pdf hok nh hnh bw pdf hp
      subst hnh
      refine (dif_pos c.isLt).trans ?_
      obtain ⟨h1, h2⟩ := layer_ids hok hf
      unfold MCLayer.callOn Nbh.diffs
      simp only [hpdf]
      unfold mcSpec
      have hfin : ∀ (c : Fin cout.n), Finset.univ.filter (fun p : Fin cin.n => (p, c) ∈
          (⟨⟨cin, fun _ => radius, eps⟩, fun _ => radius, cout, false, nb⟩ : Nbh k K).originalNeighIds) =
          nbrs cin cout radius c := by
        intro c
        ext p
        simp only [Finset.mem_filter, Finset.mem_univ, true_and]
        exact h1 p c
      rw [← hfin]
      refine Eq.trans ?_ (mcConv_eq act L (k + 2) _ h2
        (fun p c => rowOf (fun d => (cin.pts p d - cout.pts c d) / radius))
        (fun p => density ker cin (fun _ => bw) (fun _ => radius) p) f c o)
      simp only [gatherD_fin]

/-- The layer's neighbourhood is always found on the GPU. -/
theorem layerNbh_gpu (eps : K) (cin cout : Cloud (Fin (k + 2) → K)) (radius : K)
    (hok : LayerOk cin cout radius eps) (hn : 0 < cout.n) (hB : ∀ i, cout.batch i < cin.B) :
    ∃ h, layerNbh .gpu eps cin cout radius = .ok h := by
  obtain ⟨r, hr⟩ := findNeighbors_gpu_returns (⟨cin, fun _ => radius, eps⟩ : Grid (k + 2) K) cout
    (fun _ => radius) hok.valid (fun _ => hok.radius_pos) hok.eps_pos hn hB
  refine ⟨⟨⟨cin, fun _ => radius, eps⟩, fun _ => radius, cout, false, r⟩, ?_⟩
  unfold layerNbh Nbh.new
  simp only
  rw [hr]

theorem layer_pdf_gpu (ker : K → K) (eps : K) (cin cout : Cloud (Fin (k + 2) → K)) (radius bw : K)
    (hok : LayerOk cin cout radius eps) (hin : 0 < cin.n) (h : Nbh k K)
    (hl : layerNbh .gpu eps cin cout radius = .ok h) :
    ∃ l, (h.runGet ker .gpu none ⟨fun _ => bw, .constant, false⟩).1 = .ok l := by
  obtain ⟨nb, rfl, hf⟩ := layerNbh_eq hl
  obtain ⟨r, hr⟩ := findNeighbors_gpu_returns (⟨cin, fun _ => radius, eps⟩ : Grid (k + 2) K)
    (Grid.sortedCloud ⟨cin, fun _ => radius, eps⟩)
    (fun _ => radius) hok.valid (fun _ => hok.radius_pos) hok.eps_pos hin (fun i => hok.valid _)
  unfold Nbh.runGet Nbh.computePdf Nbh.rawPdf
  simp only [reduceCtorEq, if_false, Bool.false_eq_true]
  have : Nbh.new .gpu (⟨cin, fun _ => radius, eps⟩ : Grid (k + 2) K) (fun _ => radius) none =
      .ok ⟨⟨cin, fun _ => radius, eps⟩, fun _ => radius, _, true, r⟩ := by
    unfold Nbh.new
    simp only
    rw [hr]
  rw [this]
  exact ⟨_, rfl⟩

/-- **C41, kernel MLPs.** The kernel functions used in the formula of `MCConv` are
multilayer perceptrons: the result is the last of the activations `h 0 = x`,
`h (l+1) = act (h l * W_l + b_l)`, every layer with the weights of the given MLP. -/
theorem C41_kernel_mlp {K : Type*} [Field K] (act : K → K) (m prev : ℕ) (ls : List (MlpLayer K)) (x : ℕ → K) :
    ∃ (h : ℕ → ℕ → K) (size : ℕ → ℕ), h 0 = x ∧ size 0 = prev ∧
      (∀ l (hl : l < ls.length), size (l + 1) = ls[l].size ∧
        ∀ o, h (l + 1) o = act (∑ i ∈ Finset.range (size l), h l i * ls[l].w m i o + ls[l].b m o)) ∧
      mlpEval act m prev ls x = h ls.length := by
  induction ls generalizing prev x with
  | nil => exact ⟨fun _ => x, fun _ => prev, rfl, rfl, by simp, rfl⟩
  | cons a ls ih =>
    obtain ⟨h, size, h0, hs, hstep, hend⟩ := ih a.size
      (fun o => act (∑ i ∈ Finset.range prev, x i * a.w m i o + a.b m o))
    refine ⟨fun l => match l with | 0 => x | l + 1 => h l, fun l => match l with | 0 => prev | l + 1 => size l,
      rfl, rfl, ?_, hend⟩
    intro l hl
    cases l with
    | zero =>
      refine ⟨hs, fun o => ?_⟩
      show h 0 o = _
      rw [h0]
      rfl
    | succ l =>
      have := hstep l (by simpa using hl)
      exact this

/-- **C41, MCConv returns on the GPU** for non-empty clouds whose batch ids
match. -/
theorem C41_mcconv_returns (ker act : K → K) (eps : K) (L : MCLayer K)
    (cin cout : Cloud (Fin (k + 2) → K)) (radius bw : K) (hok : LayerOk cin cout radius eps)
    (hn : 0 < cout.n) (hin : 0 < cin.n) (hB : ∀ i, cout.batch i < cin.B) (f : Fin cin.n → ℕ → K) :
    ∃ out, L.call ker act .gpu eps cin cout radius bw f = .ok out := by
  obtain ⟨h, hh⟩ := layerNbh_gpu eps cin cout radius hok hn hB
  obtain ⟨l, hl⟩ := layer_pdf_gpu ker eps cin cout radius bw hok hin h hh
  unfold MCLayer.call
  rw [hh]
  dsimp only
  rw [hl]
  exact ⟨_, rfl⟩

/-! ### Invariances of the specification -/

theorem nbrs_translate {D : ℕ} (cin cout : Cloud (Fin D → K)) (radius : K) (t : Fin D → K) (c : Fin cout.n) :
    nbrs (cin.translate t) (cout.translate t) radius c = nbrs cin cout radius c := by
  unfold nbrs Cloud.translate
  simp only [add_sub_add_right_eq_sub]

theorem density_translate {D : ℕ} (ker : K → K) (c : Cloud (Fin (D + 1) → K)) (bw radii : Fin (D + 1) → K)
    (t : Fin (D + 1) → K) (p : Fin c.n) :
    density ker (c.translate t) bw radii p = density ker c bw radii p := by
  unfold density Cloud.translate
  simp only [add_sub_add_right_eq_sub]

theorem nbrs_scale {D : ℕ} (cin cout : Cloud (Fin D → K)) (radius s : K) (hs : 0 < s) (c : Fin cout.n) :
    nbrs (cin.scale s) (cout.scale s) (s * radius) c = nbrs cin cout radius c := by
  unfold nbrs Cloud.scale
  simp only [← mul_sub, normLt_scale _ _ s hs]

theorem density_scale {D : ℕ} (ker : K → K) (c : Cloud (Fin (D + 1) → K)) (bw radii : Fin (D + 1) → K)
    (s : K) (hs : 0 < s) (p : Fin c.n) :
    density ker (c.scale s) bw (fun d => s * radii d) p = density ker c bw radii p := by
  unfold density Cloud.scale
  simp only [← mul_sub, normLt_scale _ _ s hs]
  congr 1
  apply Finset.sum_congr rfl
  intro q _
  apply Finset.prod_congr rfl
  intro d _
  congr 1
  rw [show bw d * (s * radii d) = s * (bw d * radii d) by ring, mul_div_mul_left _ _ hs.ne']

/-- **C41, MCConv is translation invariant.** -/
theorem C41_mcconv_translation (ker act : K → K) (dev dev' : Device) (eps : K) (L : MCLayer K)
    (cin cout : Cloud (Fin (k + 2) → K)) (radius bw : K) (hok : LayerOk cin cout radius eps)
    (t : Fin (k + 2) → K) (f : Fin cin.n → ℕ → K) (out out' : Fin cout.n → ℕ → K)
    (h : L.call ker act dev eps cin cout radius bw f = .ok out)
    (h' : L.call ker act dev' eps (cin.translate t) (cout.translate t) radius bw f = .ok out') :
    out' = out := by
  funext c o
  rw [C41_mcconv_formula ker act dev eps L cin cout radius bw hok f out h c o,
    C41_mcconv_formula ker act dev' eps L (cin.translate t) (cout.translate t) radius bw
      ⟨hok.valid, hok.radius_pos, hok.eps_pos⟩ f out' h' c o]
  unfold mcSpec
  refine Finset.sum_congr (nbrs_translate cin cout radius t c) (fun p _ => Finset.sum_congr rfl
    (fun ch _ => Finset.sum_congr rfl (fun hh _ => ?_)))
  have h1 : density ker (cin.translate t) (fun _ => bw) (fun _ => radius) p =
    density ker cin (fun _ => bw) (fun _ => radius) p := density_translate _ _ _ _ _ _
  have h2 : (fun d => ((cin.translate t).pts p d - (cout.translate t).pts c d) / radius) =
      fun d => (cin.pts p d - cout.pts c d) / radius := by
    funext d
    show (cin.pts p d + t d - (cout.pts c d + t d)) / radius = _
    rw [add_sub_add_right_eq_sub]
  rw [h1, h2]

/-- **C41, MCConv is linear in the features.** -/
theorem C41_mcconv_linear (ker act : K → K) (dev : Device) (eps : K) (L : MCLayer K)
    (cin cout : Cloud (Fin (k + 2) → K)) (radius bw : K) (hok : LayerOk cin cout radius eps)
    (f g : Fin cin.n → ℕ → K) (a b : K) (outf outg out : Fin cout.n → ℕ → K)
    (hf : L.call ker act dev eps cin cout radius bw f = .ok outf)
    (hg : L.call ker act dev eps cin cout radius bw g = .ok outg)
    (h : L.call ker act dev eps cin cout radius bw (fun p x => a * f p x + b * g p x) = .ok out)
    (c : Fin cout.n) (o : ℕ) : out c o = a * outf c o + b * outg c o := by
  rw [C41_mcconv_formula ker act dev eps L _ _ radius bw hok _ out h,
    C41_mcconv_formula ker act dev eps L _ _ radius bw hok _ outf hf,
    C41_mcconv_formula ker act dev eps L _ _ radius bw hok _ outg hg]
  unfold mcSpec
  simp only [Finset.mul_sum]
  simp only [← Finset.sum_add_distrib]
  refine Finset.sum_congr rfl (fun p _ => Finset.sum_congr rfl (fun ch _ => Finset.sum_congr rfl (fun hh _ => ?_)))
  ring

end
end PC
