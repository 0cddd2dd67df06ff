import Verif.GpuGrad
import Verif.Props.GpuLayer
import Mathlib.Analysis.Calculus.Deriv.Mul
import Mathlib.Analysis.Calculus.Deriv.Inv
import Mathlib.Analysis.Calculus.Deriv.Add
import Mathlib.Analysis.Calculus.Deriv.Prod

/-!
# C109: the gradients of the layers on the GPU

The gradients TensorFlow assembles from the gradient operations of
`custom_ops_wrapper.py` and its own rules are the derivatives of what the layer
returns, along every differentiable motion of points, features and weights.
-/

set_option linter.unusedVariables false
set_option linter.unusedSectionVars false

namespace PC

open Filter Topology

section
variable {k : ℕ}

/-! ## the projection -/

theorem flat3_mk {m : ℕ} (nf cols : ℕ) (g : Fin m → ℕ → ℕ → ℝ) (c : Fin m) {ch b : ℕ} (hch : ch < nf) (hb : b < cols) :
    flat3 nf cols g ((c.val * nf + ch) * cols + b) = g c ch b := by
  have hcols : 0 < cols := by omega
  have hnf : 0 < nf := by omega
  have e1 : ((c.val * nf + ch) * cols + b) / cols = c.val * nf + ch := by
    rw [Nat.add_comm, Nat.add_mul_div_right _ _ hcols, Nat.div_eq_of_lt hb, Nat.zero_add]
  have e2 : (c.val * nf + ch) / nf = c.val := by
    rw [Nat.add_comm, Nat.add_mul_div_right _ _ hnf, Nat.div_eq_of_lt hch, Nat.zero_add]
  have e3 : (c.val * nf + ch) % nf = ch := by
    rw [Nat.add_comm, Nat.add_mul_mod_self_right, Nat.mod_eq_of_lt hch]
  have e4 : ((c.val * nf + ch) * cols + b) % cols = b := by
    rw [Nat.add_comm, Nat.add_mul_mod_self_right, Nat.mod_eq_of_lt hb]
  have e5 : ((c.val * nf + ch) * cols + b) / (nf * cols) = c.val := by
    rw [Nat.mul_comm nf cols, ← Nat.div_div_eq_div_mul, e1, e2]
  unfold flat3
  rw [dif_pos (by rw [e5]; exact c.isLt), e1, e3, e4]
  congr 1
  exact Fin.ext e5

theorem projSum_args {n m nf K : ℕ} (ranges : List ℕ) (pairs : List (Fin n × Fin m))
    (hd : RangesDelimit ranges pairs) (basis : Fin pairs.length → Fin K → ℝ) (f : Fin n → Fin nf → ℝ)
    (c : Fin m) (ch : Fin nf) (b : Fin K) :
    projSum (projArgs pairs (fun i => ranges.getD i 0) basis f) c.val ch.val b.val = basisProj pairs basis f c ch b := by
  unfold projSum basisProj
  refine (sum_rangeIdx hd c _).trans ?_
  unfold segSum
  refine Finset.sum_congr rfl (fun j _ => ?_)
  have e1 : ((projArgs pairs (fun i => ranges.getD i 0) basis f).nb j.val).1 = (pairs.get j).1.val := by
    simp [projArgs]
  have e2 := flat2_mk f (pairs.get j).1 ch
  have e3 := flat2_mk basis j b
  dsimp only
  rw [e1]
  have e4 : gatherD f (pairs.get j).1.val ch = f (pairs.get j).1 ch := by simp [gatherD]
  rw [e4, ← e2, ← e3]
  rfl

/-- The two gradients of `basis_proj` are the adjoint of its derivative, for every
schedule. -/
theorem gpuProjGrad_spec {n m : ℕ} (pairs : List (Fin n × Fin m)) (ranges : List ℕ) (hd : RangesDelimit ranges pairs)
    (hm : 0 < m) (nf cols : ℕ) (hK : opBasisOk cols = true) (hf : opFeaturesOk nf = true)
    (basis : Fin pairs.length → ℕ → ℝ) (f : Fin n → ℕ → ℝ) (g : Fin m → ℕ → ℕ → ℝ) (bG : ℕ → ℕ → ℝ)
    (fG : Fin n → ℕ → ℝ) (h : GpuProjGrad pairs ranges nf cols basis f g bG fG)
    (β : Fin pairs.length → ℕ → ℝ) (φ : Fin n → ℕ → ℝ) :
    ∑ j : Fin pairs.length, ∑ b ∈ Finset.range cols, bG j.val b * β j b +
        ∑ p : Fin n, ∑ ch ∈ Finset.range nf, fG p ch * φ p ch =
      ∑ c : Fin m, ∑ ch ∈ Finset.range nf, ∑ b ∈ Finset.range cols,
        g c ch b * (basisProj pairs β f c ch b + basisProj pairs basis φ c ch b) := by
  obtain ⟨W, out, hW, hp, rfl, rfl⟩ := h
  have hK' : projBasisOk cols = true := by simpa [opBasisOk, projBasisOk] using hK
  have hf' : projFeatOk nf = true := by simpa [opFeaturesOk, projFeatOk] using hf
  have key := C62_adjoint (projArgs pairs (fun i => ranges.getD i 0) (fun j (b : Fin cols) => basis j b.val)
      (fun p (ch : Fin nf) => f p ch.val)) n pairs.length (by
        intro s hs j hj
        have hs' : s < m := hs
        have h2 : j < pairs.length := rangeIdx_lt hd s j hj
        refine ⟨h2, ?_⟩
        simp only [projArgs, List.getElem?_eq_getElem h2]
        exact (pairs[j]).1.isLt)
      hK' hf'
      (flat3 nf cols g) W hW hm out hp (flat2 (fun j (b : Fin cols) => β j b.val)) (flat2 (fun p (ch : Fin nf) => φ p ch.val))
  have hl1 : ∑ i : Fin (pairs.length * cols), out (Sum.inl i.val) * flat2 (fun j (b : Fin cols) => β j b.val) i.val =
      ∑ j : Fin pairs.length, ∑ b ∈ Finset.range cols, out (Sum.inl (j.val * cols + b)) * β j b := by
    rw [Finset.sum_range (fun j => out (Sum.inl j) * flat2 (fun j (b : Fin cols) => β j b.val) j) |>.symm,
      sum_range_mul_blocks, Finset.sum_range]
    refine Finset.sum_congr rfl fun j _ => Finset.sum_congr rfl fun b hb => ?_
    rw [Finset.mem_range] at hb
    rw [Nat.add_comm b, flat2_mk (fun j (b : Fin cols) => β j b.val) j ⟨b, hb⟩]
  have hl2 : ∑ i : Fin (n * nf), out (Sum.inr i.val) * flat2 (fun p (ch : Fin nf) => φ p ch.val) i.val =
      ∑ p : Fin n, ∑ ch ∈ Finset.range nf, out (Sum.inr (p.val * nf + ch)) * φ p ch := by
    rw [Finset.sum_range (fun j => out (Sum.inr j) * flat2 (fun p (ch : Fin nf) => φ p ch.val) j) |>.symm,
      sum_range_mul_blocks, Finset.sum_range]
    refine Finset.sum_congr rfl fun p _ => Finset.sum_congr rfl fun b hb => ?_
    rw [Finset.mem_range] at hb
    rw [Nat.add_comm b, flat2_mk (fun p (ch : Fin nf) => φ p ch.val) p ⟨b, hb⟩]
  rw [← hl1, ← hl2]
  refine key.trans ?_
  show ∑ s ∈ Finset.range m, ∑ ch ∈ Finset.range nf, ∑ b ∈ Finset.range cols, _ = _
  rw [Finset.sum_range]
  refine Finset.sum_congr rfl fun c _ => Finset.sum_congr rfl fun ch hch => Finset.sum_congr rfl fun b hb => ?_
  rw [Finset.mem_range] at hch hb
  have e1 := projSum_args ranges pairs hd (fun j (b : Fin cols) => β j b.val) (fun p (ch : Fin nf) => f p ch.val) c ⟨ch, hch⟩ ⟨b, hb⟩
  have e2 := projSum_args ranges pairs hd (fun j (b : Fin cols) => basis j b.val) (fun p (ch : Fin nf) => φ p ch.val) c ⟨ch, hch⟩ ⟨b, hb⟩
  have e3 : ∀ (β : Fin pairs.length → ℕ → ℝ) (f : Fin n → ℕ → ℝ),
      basisProj pairs (fun j (b : Fin cols) => β j b.val) (fun p (ch : Fin nf) => f p ch.val) c ⟨ch, hch⟩ ⟨b, hb⟩ =
        basisProj pairs β f c ch b := by
    intro β f
    unfold basisProj gatherD
    simp
  rw [e3] at e1 e2
  rw [← e1, ← e2]
  refine congrArg₂ _ (flat3_mk nf cols g c hch hb) rfl

theorem gpuProjGrad_exists {n m : ℕ} (pairs : List (Fin n × Fin m)) (ranges : List ℕ) (nf cols : ℕ)
    (basis : Fin pairs.length → ℕ → ℝ) (f : Fin n → ℕ → ℝ) (g : Fin m → ℕ → ℕ → ℝ) :
    ∃ bG fG, GpuProjGrad pairs ranges nf cols basis f g bG fG := by
  obtain ⟨out, h⟩ := exists_projGrad (projArgs pairs (fun i => ranges.getD i 0) (fun j (b : Fin cols) => basis j b.val)
    (fun p (ch : Fin nf) => f p ch.val)) (flat3 nf cols g) 1
  exact ⟨_, _, 1, out, one_pos, h, rfl, rfl⟩

/-! ## neighbourhoods near a position -/

/-- A difference of two points does not have exactly the length `r` at `θ₀`, unless it
does not move at all. -/
def OffRadius {D : ℕ} (θ₀ r : ℝ) (u : ℝ → Fin D → ℝ) : Prop := (∀ θ, u θ = u θ₀) ∨ ∑ d, u θ₀ d ^ 2 ≠ r ^ 2

theorem eventually_normLt {D : ℕ} (u : ℝ → Fin D → ℝ) (θ₀ r : ℝ) (hu : ∀ d, ContinuousAt (fun θ => u θ d) θ₀)
    (hne : OffRadius θ₀ r u) : ∀ᶠ θ in 𝓝 θ₀, (normLt (u θ) r ↔ normLt (u θ₀) r) := by
  rcases hne with hfix | hne
  · exact Eventually.of_forall fun θ => by rw [hfix θ]
  have hc : ContinuousAt (fun θ => ∑ d, u θ d * u θ d) θ₀ :=
    tendsto_finsetSum _ fun d _ => (hu d).mul (hu d)
  have e : ∑ d, u θ₀ d * u θ₀ d ≠ r * r := by simpa [pow_two] using hne
  rcases lt_or_gt_of_ne e with h | h
  · filter_upwards [hc.eventually (gt_mem_nhds h)] with θ hθ
    simp only [normLt, h, hθ, and_true]
  · filter_upwards [hc.eventually (lt_mem_nhds h)] with θ hθ
    simp only [normLt, not_lt.mpr h.le, not_lt.mpr (le_of_lt hθ), and_false]

/-! ## densities -/

/-- The densities of a run with a given list of pairs, wherever the points are. -/
theorem pdfFwd_list {n : ℕ} (q : Fin n → Fin (k + 2) → ℝ) (self : Pairs n n) (hd : RangesDelimit self.ranges self.pairs)
    (hnd : self.pairs.Nodup) (bw radius : ℝ) (B W : ℕ) (hB : 0 < B) (hW : 0 < W) (out : ℕ → ℝ)
    (h : PdfFwd (pdfArgs q self.pairs (fun i => self.ranges.getD i 0) (fun _ => bw) (fun _ => radius))
      KDEMode.constant.value B W out) (i : Fin n) :
    out i.val = (∑ a ∈ Finset.univ.filter (fun a => (a, i) ∈ self.pairs),
      ∏ d : Fin (k + 2), cuGauss ((q a d - q i d) / (bw * radius))) / ∏ _d : Fin (k + 2), bw := by
  have h1 := cuda_eq_tf q self.ranges self.pairs hd (fun _ => bw) (fun _ => radius) B W hB hW out h i i.isLt
  rw [h1, pdfOfPairs_eq gauss q (fun _ => bw) (fun _ => radius) .constant self.pairs hnd i i rfl]
  simp only [cuGauss_eq, Finset.prod_mul_distrib, Finset.prod_const, Finset.card_univ, Fintype.card_fin]
  rw [← Finset.sum_mul]
  ring

/-- The densities have derivatives along every motion of the points at which no
pair is exactly at the radius, and the gradient operation returns them. -/
theorem density_curve (Ws n : ℕ) (bi : Fin n → ℕ) (Bi : ℕ) (x : ℝ → Fin n → Fin (k + 2) → ℝ) (θ₀ : ℝ)
    (x' : Fin n → Fin (k + 2) → ℝ) (hx : ∀ p d, HasDerivAt (fun θ => x θ p d) (x' p d) θ₀) (radius eps bw : ℝ)
    (hr : 0 < radius) (hW : 0 < Ws) (hn : 0 < n) (hone : n ≤ 512 + Ws * 64)
    (hdim : k ≤ 1 ∨ 3 ≤ (⟨⟨n, x θ₀, bi, Bi⟩, fun _ => radius, eps⟩ : Grid (k + 2) ℝ).numCells (Fin.last _))
    (hne : ∀ p q, bi p = bi q → OffRadius θ₀ radius fun θ d => x θ p d - x θ q d)
    (self : Pairs n n)
    (hs : GpuFind Ws (⟨⟨n, x θ₀, bi, Bi⟩, fun _ => radius, eps⟩ : Grid (k + 2) ℝ)
      (⟨⟨n, x θ₀, bi, Bi⟩, fun _ => radius, eps⟩ : Grid (k + 2) ℝ).cuSorted (fun _ => radius) self) :
    ∃ δ : Fin n → ℝ,
      (∀ p, HasDerivAt (fun θ => density cuGauss ⟨n, x θ, bi, Bi⟩ (fun _ => bw) (fun _ => radius) p) (δ p) θ₀) ∧
      ∀ (B W : ℕ) (u : ℕ → ℝ) (ptG : ℕ × Fin (k + 2) → ℝ), 0 < B → 0 < W →
        PdfGrad (pdfArgs (⟨⟨n, x θ₀, bi, Bi⟩, fun _ => radius, eps⟩ : Grid (k + 2) ℝ).cuSorted.pts self.pairs
          (fun i => self.ranges.getD i 0) (fun _ => bw) (fun _ => radius)) KDEMode.constant.value B W u ptG →
        ∑ i : Fin n, u i.val * δ (cuPerm (⟨⟨n, x θ₀, bi, Bi⟩, fun _ => radius, eps⟩ : Grid (k + 2) ℝ) i) =
          ∑ i : Fin n, ∑ d, ptG (i.val, d) *
            x' (cuPerm (⟨⟨n, x θ₀, bi, Bi⟩, fun _ => radius, eps⟩ : Grid (k + 2) ℝ) i) d := by
  set g : Grid (k + 2) ℝ := ⟨⟨n, x θ₀, bi, Bi⟩, fun _ => radius, eps⟩ with hg
  obtain ⟨h1, h2, h3⟩ := gpuFind_spec Ws g g.cuSorted (fun _ => radius) (fun _ => hr) (fun _ => le_rfl) hW hn hone self hs
  have hnd := h3 hdim
  let π : Equiv.Perm (Fin n) := cuPerm g
  let z : ℝ → Fin n → Fin (k + 2) → ℝ := fun θ i => x θ (π i)
  let z' : Fin n → Fin (k + 2) → ℝ := fun i => x' (π i)
  have hz : HasDerivAt z z' θ₀ := hasDerivAt_pi.mpr fun i => hasDerivAt_pi.mpr fun d => hx (π i) d
  let I : PdfIn (k + 2) := pdfArgs g.cuSorted.pts self.pairs (fun i => self.ranges.getD i 0) (fun _ => bw) (fun _ => radius)
  have hfw : ∀ q : Fin n → Fin (k + 2) → ℝ, ∃ out, PdfFwd { I with pts := gatherPt q } KDEMode.constant.value 1 1 out :=
    fun q => exists_pdfFwd _ _ _ _
  choose fwd hfwd using hfw
  have hval : ∀ (q : Fin n → Fin (k + 2) → ℝ) (i : Fin n), fwd q i.val =
      (∑ a ∈ Finset.univ.filter (fun a => (a, i) ∈ self.pairs),
        ∏ d : Fin (k + 2), cuGauss ((q a d - q i d) / (bw * radius))) / ∏ _d : Fin (k + 2), bw :=
    fun q i => pdfFwd_list q self h1 hnd bw radius 1 1 one_pos one_pos (fwd q) (hfwd q) i
  -- near the position, the list of pairs stays the list of neighbours
  have hev : ∀ᶠ θ in 𝓝 θ₀, ∀ i : Fin n, fwd (z θ) i.val =
      density cuGauss ⟨n, x θ, bi, Bi⟩ (fun _ => bw) (fun _ => radius) (π i) := by
    have h4 : ∀ᶠ θ in 𝓝 θ₀, ∀ p q : Fin n, bi q = bi p →
        (normLt (fun d => x θ q d - x θ p d) radius ↔ normLt (fun d => x θ₀ q d - x θ₀ p d) radius) := by
      rw [eventually_all]
      intro p
      rw [eventually_all]
      intro q
      by_cases hb : bi q = bi p
      · refine (eventually_normLt (fun θ d => x θ q d - x θ p d) θ₀ radius
          (fun d => (hx q d).continuousAt.sub (hx p d).continuousAt) (hne q p hb)).mono fun θ h _ => h
      · exact Eventually.of_forall fun θ h => absurd h hb
    filter_upwards [h4] with θ hθ i
    rw [hval]
    unfold density
    congr 1
    refine Finset.sum_bij (fun q _ => π q) ?_ ?_ ?_ ?_
    · intro q hq
      simp only [Finset.mem_filter, Finset.mem_univ, true_and] at hq ⊢
      have h5 := (h2 q i).mp hq
      refine ⟨h5.1, ?_⟩
      exact (hθ (π i) (π q) h5.1).mpr ((scaled_lt_iff _ _ hr).mpr h5.2)
    · intro a _ b _ hab
      exact π.injective hab
    · intro q hq
      simp only [Finset.mem_filter, Finset.mem_univ, true_and] at hq
      refine ⟨π.symm q, ?_, by simp⟩
      simp only [Finset.mem_filter, Finset.mem_univ, true_and]
      refine (h2 _ i).mpr ?_
      have e : cuPerm g (π.symm q) = q := Equiv.apply_symm_apply _ _
      rw [e]
      exact ⟨hq.1, (scaled_lt_iff _ _ hr).mp ((hθ (π i) q hq.1).mp hq.2)⟩
    · intro q _
      rfl
  have hcomb : ∀ (B W : ℕ) (u : ℕ → ℝ) (ptG : ℕ × Fin (k + 2) → ℝ), 0 < B → 0 < W →
      PdfGrad I KDEMode.constant.value B W u ptG →
      HasDerivAt (fun θ => ∑ i : Fin n, u i.val *
        density cuGauss ⟨n, x θ, bi, Bi⟩ (fun _ => bw) (fun _ => radius) (π i))
        (∑ i : Fin n, ∑ d, ptG (i.val, d) * x' (π i) d) θ₀ := by
    intro B W u ptG hB hW' hgr
    obtain ⟨L, hL, hLv⟩ := C63_gradient I KDEMode.constant.value 1 1 B W one_pos one_pos hB hW' (by
      intro i hi j hj
      have h6 : j < self.pairs.length := rangeIdx_lt h1 i j hj
      have e : (I.nb j).1 = (self.pairs[j]).1.val := by
        show ((self.pairs[j]?.map (fun p => (p.1.val, p.2.val))).getD (0, 0)).1 = _
        rw [List.getElem?_eq_getElem h6]
        rfl
      rw [e]
      exact (self.pairs[j]).1.isLt) u (z θ₀) fwd hfwd ptG hgr
    have h7 := hL.comp_hasDerivAt θ₀ hz
    rw [hLv z'] at h7
    refine h7.congr_of_eventuallyEq ?_
    filter_upwards [hev] with θ hθ
    exact Finset.sum_congr rfl fun i _ => by rw [← hθ i]
  -- every single density
  have hone' : ∀ i : Fin n, ∃ δ, HasDerivAt
      (fun θ => density cuGauss ⟨n, x θ, bi, Bi⟩ (fun _ => bw) (fun _ => radius) (π i)) δ θ₀ := by
    intro i
    obtain ⟨ptG, hp⟩ := exists_pdfGrad I KDEMode.constant.value 1 1 (fun j => if j = i.val then 1 else 0)
    refine ⟨_, (hcomb 1 1 _ ptG one_pos one_pos hp).congr_of_eventuallyEq (Eventually.of_forall fun θ => ?_)⟩
    have : ∀ j : Fin n, (j.val = i.val) = (j = i) := fun j => propext Fin.ext_iff.symm
    simp only [this, ite_mul, one_mul, zero_mul, Finset.sum_ite_eq', Finset.mem_univ, if_true]
  choose δ hδ using hone'
  refine ⟨fun p => δ (π.symm p), fun p => by simpa using hδ (π.symm p), ?_⟩
  intro B W u ptG hB hW' hgr
  have h8 := hcomb B W u ptG hB hW' hgr
  have h9 : HasDerivAt (fun θ => ∑ i : Fin n, u i.val *
        density cuGauss ⟨n, x θ, bi, Bi⟩ (fun _ => bw) (fun _ => radius) (π i)) (∑ i : Fin n, u i.val * δ i) θ₀ :=
    HasDerivAt.fun_sum fun i _ => (hδ i).const_mul (u i.val)
  have h10 := h9.unique h8
  have e : ∀ i, δ (π.symm (cuPerm g i)) = δ i := fun i => congrArg δ (Equiv.symm_apply_apply _ _)
  exact (Finset.sum_congr rfl fun i _ => congrArg (u i.val * ·) (e i)).trans h10

/-! ## MCConv -/

theorem block_div {g G k : ℕ} (h : g < G) : (g + k * G) / G = k := by
  rw [Nat.add_mul_div_right _ _ (by omega), Nat.div_eq_of_lt h, Nat.zero_add]

theorem block_mod {g G k : ℕ} (h : g < G) : (g + k * G) % G = g := by
  rw [Nat.add_mul_mod_self_right, Nat.mod_eq_of_lt h]

theorem mcBlocks (ci hid ml q : ℕ) (G : ℕ → ℝ) (w : ℕ → ℕ → ℕ → ℝ) (X : ℕ → ℕ → ℝ) :
    ∑ ch ∈ Finset.range ci, ∑ b ∈ Finset.range (ml * hid),
      (∑ o ∈ Finset.range q, G (b / hid * q + o) * w (b / hid) (ch * hid + b % hid) o) * X ch b =
    ∑ o ∈ Finset.range (ml * q), G o * ∑ ch ∈ Finset.range ci, ∑ hh ∈ Finset.range hid,
      X ch (o / q * hid + hh) * w (o / q) (ch * hid + hh) (o % q) := by
  have e1 : ∀ ch, ∑ b ∈ Finset.range (ml * hid),
      (∑ o ∈ Finset.range q, G (b / hid * q + o) * w (b / hid) (ch * hid + b % hid) o) * X ch b =
      ∑ mi ∈ Finset.range ml, ∑ o ∈ Finset.range q, ∑ hh ∈ Finset.range hid,
        G (mi * q + o) * (X ch (mi * hid + hh) * w mi (ch * hid + hh) o) := by
    intro ch
    rw [sum_range_mul_blocks]
    refine Finset.sum_congr rfl fun mi _ => ?_
    rw [Finset.sum_comm]
    refine Finset.sum_congr rfl fun hh hh' => ?_
    rw [Finset.mem_range] at hh'
    rw [block_div hh', block_mod hh', Finset.sum_mul]
    refine Finset.sum_congr rfl fun o _ => ?_
    rw [Nat.add_comm hh]
    ring
  simp only [e1]
  rw [sum_range_mul_blocks, Finset.sum_comm]
  refine Finset.sum_congr rfl fun mi _ => ?_
  rw [Finset.sum_comm]
  refine Finset.sum_congr rfl fun o ho => ?_
  rw [Finset.mem_range] at ho
  rw [block_div ho, block_mod ho, Finset.mul_sum]
  refine Finset.sum_congr rfl fun ch _ => ?_
  rw [Finset.mul_sum]
  refine Finset.sum_congr rfl fun hh _ => ?_
  rw [Nat.add_comm o]

theorem mcBlocksW (ci hid ml q : ℕ) (G : ℕ → ℝ) (w : ℕ → ℕ → ℕ → ℝ) (Y : ℕ → ℕ → ℝ) :
    ∑ mi ∈ Finset.range ml, ∑ x ∈ Finset.range (ci * hid), ∑ o ∈ Finset.range q,
      Y (x / hid) (mi * hid + x % hid) * G (mi * q + o) * w mi x o =
    ∑ o ∈ Finset.range (ml * q), G o * ∑ ch ∈ Finset.range ci, ∑ hh ∈ Finset.range hid,
      Y ch (o / q * hid + hh) * w (o / q) (ch * hid + hh) (o % q) := by
  rw [sum_range_mul_blocks]
  refine Finset.sum_congr rfl fun mi _ => ?_
  rw [Finset.sum_comm]
  refine Finset.sum_congr rfl fun o ho => ?_
  rw [Finset.mem_range] at ho
  rw [block_div ho, block_mod ho, sum_range_mul_blocks, Finset.mul_sum]
  refine Finset.sum_congr rfl fun ch _ => ?_
  rw [Finset.mul_sum]
  refine Finset.sum_congr rfl fun hh hh' => ?_
  rw [Finset.mem_range] at hh'
  rw [block_div hh', block_mod hh', Nat.add_comm o, Nat.add_comm hh]
  ring

theorem sum_map_get {α β : Type*} (l : List α) (φ : α → β) (l' : List β) (hl : l' = l.map φ) (F : ℕ → β → ℝ) :
    ∑ j : Fin l'.length, F j.val (l'.get j) = ∑ j : Fin l.length, F j.val (φ (l.get j)) := by
  subst hl
  refine Fintype.sum_equiv (finCongr (List.length_map φ)) _ _ fun j => ?_
  simp

/-- Neighbourhoods do not change near a position with no pair at the radius. -/
theorem eventually_nbrs (n m : ℕ) (bi : Fin n → ℕ) (bo : Fin m → ℕ) (Bi Bo : ℕ) {D : ℕ} (x : ℝ → Fin n → Fin D → ℝ)
    (y : ℝ → Fin m → Fin D → ℝ) (θ₀ radius : ℝ) (hx : ∀ p d, ContinuousAt (fun θ => x θ p d) θ₀)
    (hy : ∀ c d, ContinuousAt (fun θ => y θ c d) θ₀)
    (hne : ∀ p c, bi p = bo c → OffRadius θ₀ radius fun θ d => x θ p d - y θ c d) :
    ∀ᶠ θ in 𝓝 θ₀, ∀ c : Fin m, nbrs ⟨n, x θ, bi, Bi⟩ ⟨m, y θ, bo, Bo⟩ radius c =
      nbrs ⟨n, x θ₀, bi, Bi⟩ ⟨m, y θ₀, bo, Bo⟩ radius c := by
  have h4 : ∀ᶠ θ in 𝓝 θ₀, ∀ (c : Fin m) (p : Fin n), bi p = bo c →
      (normLt (fun d => x θ p d - y θ c d) radius ↔ normLt (fun d => x θ₀ p d - y θ₀ c d) radius) := by
    rw [eventually_all]
    intro c
    rw [eventually_all]
    intro p
    by_cases hb : bi p = bo c
    · exact (eventually_normLt (fun θ d => x θ p d - y θ c d) θ₀ radius
        (fun d => (hx p d).sub (hy c d)) (hne p c hb)).mono fun θ h _ => h
    · exact Eventually.of_forall fun θ h => absurd h hb
  filter_upwards [h4] with θ hθ c
  ext p
  rw [mem_nbrs, mem_nbrs]
  exact and_congr_right fun hb => hθ c p hb

theorem density_cuGauss_pos {D : ℕ} (c : Cloud (Fin (D + 1) → ℝ)) (bw radius : ℝ) (hbw : 0 < bw) (hr : 0 < radius)
    (p : Fin c.n) : 0 < density cuGauss c (fun _ => bw) (fun _ => radius) p := by
  have hg : ∀ t, 0 < cuGauss t := by
    intro t
    have : 0 < pdfConst := by unfold pdfConst; norm_num
    unfold cuGauss
    positivity
  unfold density
  refine div_pos ?_ (Finset.prod_pos fun _ _ => hbw)
  refine Finset.sum_pos (fun q _ => Finset.prod_pos fun d _ => hg _) ⟨p, ?_⟩
  simp only [Finset.mem_filter, Finset.mem_univ, true_and, normLt, sub_self, mul_zero, Finset.sum_const_zero]
  exact ⟨hr, by positivity⟩

/-- The derivative of the output, sorted by weighted features and final weights. -/
theorem mc_algebra {n m : ℕ} (ci hid ml q : ℕ) (N : Fin m → Finset (Fin n)) (f f' : Fin n → ℕ → ℝ)
    (A β : Fin n → Fin m → ℕ → ℝ) (w w' : ℕ → ℕ → ℕ → ℝ) (G : Fin m → ℕ → ℝ) :
    ∑ c, ∑ o ∈ Finset.range (ml * q), G c o * ∑ p ∈ N c, ∑ ch ∈ Finset.range ci, ∑ hh ∈ Finset.range hid,
        ((f' p ch * A p c (o / q * hid + hh) + f p ch * β p c (o / q * hid + hh)) * w (o / q) (ch * hid + hh) (o % q) +
          f p ch * A p c (o / q * hid + hh) * w' (o / q) (ch * hid + hh) (o % q)) =
      ∑ c, ∑ ch ∈ Finset.range ci, ∑ b ∈ Finset.range (ml * hid),
        (∑ o ∈ Finset.range q, G c (b / hid * q + o) * w (b / hid) (ch * hid + b % hid) o) *
          (∑ p ∈ N c, f p ch * β p c b + ∑ p ∈ N c, f' p ch * A p c b) +
      ∑ mi ∈ Finset.range ml, ∑ t ∈ Finset.range (ci * hid), ∑ o ∈ Finset.range q,
        (∑ c, (∑ p ∈ N c, f p (t / hid) * A p c (mi * hid + t % hid)) * G c (mi * q + o)) * w' mi t o := by
  have e1 : ∑ mi ∈ Finset.range ml, ∑ t ∈ Finset.range (ci * hid), ∑ o ∈ Finset.range q,
        (∑ c, (∑ p ∈ N c, f p (t / hid) * A p c (mi * hid + t % hid)) * G c (mi * q + o)) * w' mi t o =
      ∑ c, ∑ mi ∈ Finset.range ml, ∑ t ∈ Finset.range (ci * hid), ∑ o ∈ Finset.range q,
        (∑ p ∈ N c, f p (t / hid) * A p c (mi * hid + t % hid)) * G c (mi * q + o) * w' mi t o := by
    symm
    rw [Finset.sum_comm]
    refine Finset.sum_congr rfl fun mi _ => ?_
    rw [Finset.sum_comm]
    refine Finset.sum_congr rfl fun t _ => ?_
    rw [Finset.sum_comm]
    refine Finset.sum_congr rfl fun o _ => ?_
    rw [Finset.sum_mul]
  rw [e1, ← Finset.sum_add_distrib]
  refine Finset.sum_congr rfl fun c _ => ?_
  rw [mcBlocks ci hid ml q (G c) w (fun ch b => ∑ p ∈ N c, f p ch * β p c b + ∑ p ∈ N c, f' p ch * A p c b),
    mcBlocksW ci hid ml q (G c) w' (fun ch b => ∑ p ∈ N c, f p ch * A p c b), ← Finset.sum_add_distrib]
  refine Finset.sum_congr rfl fun o _ => ?_
  rw [← mul_add]
  congr 1
  rw [Finset.sum_comm, ← Finset.sum_add_distrib]
  refine Finset.sum_congr rfl fun ch _ => ?_
  rw [Finset.sum_comm, ← Finset.sum_add_distrib]
  refine Finset.sum_congr rfl fun hh _ => ?_
  rw [← Finset.sum_add_distrib, Finset.sum_mul, Finset.sum_mul, ← Finset.sum_add_distrib]
  refine Finset.sum_congr rfl fun p _ => ?_
  ring

/-- The derivative of the weighted sum of the outputs. -/
theorem mc_forward_deriv (act : ℝ → ℝ) (Ws : ℕ) (eps radius bw : ℝ) (hr : 0 < radius) (hbw : 0 < bw) (hW : 0 < Ws)
    (n m : ℕ) (hn : 0 < n) (hm : 0 < m) (hone : n ≤ 512 + Ws * 64) (hone' : m ≤ 512 + Ws * 64) (hk : k ≤ 1)
    (bi : Fin n → ℕ) (bo : Fin m → ℕ) (Bi Bo ci ml hid q : ℕ) (hml : ml ≠ 0)
    (hb : opBasisOk (ml * hid) = true) (hf : opFeaturesOk ci = true)
    (θ₀ : ℝ) (x : ℝ → Fin n → Fin (k + 2) → ℝ) (y : ℝ → Fin m → Fin (k + 2) → ℝ) (f : ℝ → Fin n → ℕ → ℝ)
    (L : ℝ → MCLayer ℝ)
    (hL : ∀ θ, (L θ).cin = ci ∧ (L θ).cout = ml * q ∧ (L θ).mlps = ml ∧ (L θ).hid = hid)
    (hout : ∀ p c, bi p = bo c → OffRadius θ₀ radius fun θ d => x θ p d - y θ c d)
    (x' : Fin n → Fin (k + 2) → ℝ) (f' : Fin n → ℕ → ℝ) (M' : Fin n → Fin m → ℕ → ℝ) (w' : ℕ → ℕ → ℕ → ℝ)
    (hx : ∀ p d, HasDerivAt (fun θ => x θ p d) (x' p d) θ₀) (hy : ∀ c d, ContinuousAt (fun θ => y θ c d) θ₀)
    (hfe : ∀ p, ∀ ch < ci, HasDerivAt (fun θ => f θ p ch) (f' p ch) θ₀)
    (hM : ∀ p c, bi p = bo c → ∑ d, (x θ₀ p d - y θ₀ c d) ^ 2 < radius ^ 2 → ∀ b < ml * hid,
      HasDerivAt (fun θ => mlpEval act (b / hid) (k + 2) (L θ).layers
        (rowOf (fun d => (x θ p d - y θ c d) / radius)) (b % hid)) (M' p c b) θ₀)
    (hw : ∀ mi < ml, ∀ t < ci * hid, ∀ o < q, HasDerivAt (fun θ => (L θ).final mi t o) (w' mi t o) θ₀)
    (out : ℝ → Fin m → ℕ → ℝ)
    (hcall : ∀ θ, (L θ).GpuCall act Ws eps ⟨n, x θ, bi, Bi⟩ ⟨m, y θ, bo, Bo⟩ radius bw (f θ) (out θ))
    (G : Fin m → ℕ → ℝ) (N : Fin m → Finset (Fin n))
    (hN : ∀ c, nbrs ⟨n, x θ₀, bi, Bi⟩ ⟨m, y θ₀, bo, Bo⟩ radius c = N c)
    (ρ : ℝ → Fin n → ℝ) (hρ : ∀ θ p, density cuGauss ⟨n, x θ, bi, Bi⟩ (fun _ => bw) (fun _ => radius) p = ρ θ p)
    (M : ℝ → Fin n → Fin m → ℕ → ℝ) (hMd : ∀ θ p c b, mlpEval act (b / hid) (k + 2) (L θ).layers
        (rowOf (fun d => (x θ p d - y θ c d) / radius)) (b % hid) = M θ p c b)
    (δ : Fin n → ℝ) (hδ : ∀ p, HasDerivAt (fun θ => ρ θ p) (δ p) θ₀) :
    HasDerivAt (fun θ => ∑ c, ∑ o ∈ Finset.range (ml * q), G c o * out θ c o)
      (∑ c, ∑ o ∈ Finset.range (ml * q), G c o * ∑ p ∈ N c, ∑ ch ∈ Finset.range ci, ∑ hh ∈ Finset.range hid,
        ((f' p ch * (M θ₀ p c (o / q * hid + hh) / ρ θ₀ p) + f θ₀ p ch *
            ((M' p c (o / q * hid + hh) * ρ θ₀ p - M θ₀ p c (o / q * hid + hh) * δ p) / ρ θ₀ p ^ 2)) *
            (L θ₀).final (o / q) (ch * hid + hh) (o % q) +
          f θ₀ p ch * (M θ₀ p c (o / q * hid + hh) / ρ θ₀ p) * w' (o / q) (ch * hid + hh) (o % q))) θ₀ := by
  have hρ0 : ∀ p, ρ θ₀ p ≠ 0 := fun p => by
    have h1 := density_cuGauss_pos (D := k + 1) (⟨n, x θ₀, bi, Bi⟩ : Cloud (Fin (k + 2) → ℝ)) bw radius hbw hr p
    rw [hρ] at h1
    exact h1.ne'
  have hq : ml * q / ml = q := Nat.mul_div_cancel_left q (by omega)
  have hNm : ∀ c p, p ∈ N c → bi p = bo c ∧ ∑ d, (x θ₀ p d - y θ₀ c d) ^ 2 < radius ^ 2 := by
    intro c p hp
    rw [← hN c] at hp
    obtain ⟨h1, _, h2⟩ := (mem_nbrs (⟨n, x θ₀, bi, Bi⟩ : Cloud (Fin (k + 2) → ℝ)) ⟨m, y θ₀, bo, Bo⟩ radius c p).mp hp
    refine ⟨h1, ?_⟩
    simpa [pow_two] using h2
  -- the outputs near the position
  have hS : ∀ᶠ θ in 𝓝 θ₀, ∑ c, ∑ o ∈ Finset.range (ml * q), G c o * out θ c o =
      ∑ c, ∑ o ∈ Finset.range (ml * q), G c o * ∑ p ∈ N c, ∑ ch ∈ Finset.range ci, ∑ hh ∈ Finset.range hid,
        f θ p ch * (M θ p c (o / q * hid + hh) / ρ θ p) * (L θ).final (o / q) (ch * hid + hh) (o % q) := by
    filter_upwards [eventually_nbrs n m bi bo Bi Bo x y θ₀ radius (fun p d => (hx p d).continuousAt) hy hout] with θ hθ
    refine Finset.sum_congr rfl fun c _ => Finset.sum_congr rfl fun o ho => ?_
    rw [Finset.mem_range] at ho
    obtain ⟨t1, t2, t3, t4⟩ := hL θ
    rw [C108_mcconv_formula_partial act Ws eps (L θ) ⟨n, x θ, bi, Bi⟩ ⟨m, y θ, bo, Bo⟩ radius bw hr hW hn hm hone hone'
      (Or.inl hk) (by rw [t3]; exact hml) (by rw [t2, t3]; exact Dvd.intro q rfl) (by rw [t3, t4]; exact hb)
      (by rw [t1]; exact hf) (f θ) (out θ) (hcall θ) c o (by rw [t2]; exact ho)]
    unfold mcSpec
    rw [hθ c, hN c, t1, t2, t3, t4, hq]
    refine congrArg (G c o * ·) (Finset.sum_congr rfl fun p _ => Finset.sum_congr rfl fun ch _ =>
      Finset.sum_congr rfl fun hh hh' => ?_)
    rw [Finset.mem_range] at hh'
    rw [← hMd, Nat.add_comm (o / q * hid) hh, block_div hh', block_mod hh', hρ]
  refine HasDerivAt.congr_of_eventuallyEq ?_ hS
  refine HasDerivAt.fun_sum fun c _ => HasDerivAt.fun_sum fun o ho => HasDerivAt.const_mul _ ?_
  refine HasDerivAt.fun_sum fun p hp => HasDerivAt.fun_sum fun ch hch => HasDerivAt.fun_sum fun hh hh' => ?_
  rw [Finset.mem_range] at ho hch hh'
  have hq0 : 0 < q := Nat.pos_of_ne_zero fun h => by rw [h] at ho; omega
  have hmi : o / q < ml := (Nat.div_lt_iff_lt_mul hq0).mpr ho
  have hcol : o / q * hid + hh < ml * hid := sh_mul_add_lt hh' hmi
  have hrow : ch * hid + hh < ci * hid := sh_mul_add_lt hh' hch
  obtain ⟨hp1, hp2⟩ := hNm c p hp
  have h1 := hM p c hp1 hp2 _ hcol
  simp only [hMd] at h1
  exact ((hfe p ch hch).mul (h1.fun_div (hδ p) (hρ0 p))).mul (hw _ hmi _ hrow _ (Nat.mod_lt _ hq0))

/-- The gradients the backward pass returns, summed with the velocities. -/
theorem mc_backward_sum (act : ℝ → ℝ) (radius eps bw : ℝ) (hr : 0 < radius) (hbw : 0 < bw) (n m : ℕ) (hm : 0 < m)
    (bi : Fin n → ℕ) (Bi ci ml hid q : ℕ) (hml : ml ≠ 0)
    (hb : opBasisOk (ml * hid) = true) (hf : opFeaturesOk ci = true)
    (x : Fin n → Fin (k + 2) → ℝ) (y : Fin m → Fin (k + 2) → ℝ) (f : Fin n → ℕ → ℝ) (L : MCLayer ℝ)
    (l1 : L.cin = ci) (l2 : L.cout = ml * q) (l3 : L.mlps = ml) (l4 : L.hid = hid)
    (x' : Fin n → Fin (k + 2) → ℝ) (f' : Fin n → ℕ → ℝ) (M' : Fin n → Fin m → ℕ → ℝ) (w' : ℕ → ℕ → ℕ → ℝ)
    (G : Fin m → ℕ → ℝ) (nb : Pairs n m) (pdf : List ℝ) (wf : Fin m → ℕ → ℕ → ℝ) (bG : ℕ → ℕ → ℝ) (fG : Fin n → ℕ → ℝ)
    (ptG : ℕ × Fin (k + 2) → ℝ) (π : Equiv.Perm (Fin n)) (ids : List (Fin n × Fin m))
    (hids : ids = nb.pairs.map (fun p => (π p.1, p.2)))
    (g1 : RangesDelimit nb.ranges ids) (hnd : ids.Nodup) (ρ : Fin n → ℝ) (hρ0 : ∀ p, ρ p ≠ 0)
    (M : Fin n → Fin m → ℕ → ℝ) (hM : ∀ p c b, M p c b = mlpEval act (b / hid) (k + 2) L.layers
        (rowOf (fun d => (x p d - y c d) / radius)) (b % hid))
    (hpdf : ∀ j : Fin ids.length, pdf.getD j.val 0 = ρ (ids.get j).1)
    (b5 : GpuProj ids nb.ranges L.cin (L.mlps * L.hid)
      (fun j => L.basis act (k + 2) (rowOf (fun d => (x (ids.get j).1 d - y (ids.get j).2 d) / radius))
        (pdf.getD j.val 0)) f wf)
    (b6 : GpuProjGrad ids nb.ranges L.cin (L.mlps * L.hid)
      (fun j => L.basis act (k + 2) (rowOf (fun d => (x (ids.get j).1 d - y (ids.get j).2 d) / radius))
        (pdf.getD j.val 0)) f (L.gradWf G) bG fG)
    (δ : Fin n → ℝ)
    (hδG : ∑ i : Fin n, mcGradPdf nb.pairs (L.mlps * L.hid)
        (fun j b => mlpEval act (b / L.hid) (k + 2) L.layers
          (rowOf (fun d => (x (π (nb.pairs.get j).1) d - y (nb.pairs.get j).2 d) / radius)) (b % L.hid))
        pdf bG i.val * δ (π i) = ∑ i : Fin n, ∑ d, ptG (i.val, d) * x' (π i) d) :
    ∑ c, ∑ ch ∈ Finset.range ci, ∑ b ∈ Finset.range (ml * hid),
        (∑ o ∈ Finset.range q, G c (b / hid * q + o) * L.final (b / hid) (ch * hid + b % hid) o) *
          (∑ p ∈ Finset.univ.filter (fun p => (p, c) ∈ ids), f p ch * ((M' p c b * ρ p - M p c b * δ p) / ρ p ^ 2) +
            ∑ p ∈ Finset.univ.filter (fun p => (p, c) ∈ ids), f' p ch * (M p c b / ρ p)) +
      ∑ mi ∈ Finset.range ml, ∑ t ∈ Finset.range (ci * hid), ∑ o ∈ Finset.range q,
        (∑ c, (∑ p ∈ Finset.univ.filter (fun p => (p, c) ∈ ids), f p (t / hid) * (M p c (mi * hid + t % hid) / ρ p)) *
          G c (mi * q + o)) * w' mi t o =
      ∑ j : Fin ids.length, ∑ b ∈ Finset.range (ml * hid), bG j.val b / pdf.getD j.val 0 * M' (ids.get j).1 (ids.get j).2 b +
        ∑ p, ∑ d, ptG ((π.symm p).val, d) * x' p d + ∑ p, ∑ ch ∈ Finset.range ci, fG p ch * f' p ch +
        ∑ mi ∈ Finset.range ml, ∑ t ∈ Finset.range (ci * hid), ∑ o ∈ Finset.range q,
          L.gradFinal wf G mi t o * w' mi t o := by
  have hq : L.cout / L.mlps = q := by rw [l2, l3]; exact Nat.mul_div_cancel_left q (by omega)
  have hbas : (fun j : Fin ids.length => L.basis act (k + 2)
      (rowOf (fun d => (x (ids.get j).1 d - y (ids.get j).2 d) / radius)) (pdf.getD j.val 0)) =
      fun j => (fun p c b => M p c b / ρ p) (ids.get j).1 (ids.get j).2 := by
    funext j b
    unfold MCLayer.basis
    dsimp only
    rw [l4, hpdf j, hM]
  rw [hbas, l1, l3, l4] at b5 b6
  have h1 := gpuProjGrad_spec ids nb.ranges g1 hm ci (ml * hid) hb hf _ f (L.gradWf G) bG fG b6
    (fun j => (fun p c b => (M' p c b * ρ p - M p c b * δ p) / ρ p ^ 2) (ids.get j).1 (ids.get j).2) f'
  have h2 : ∀ c ch b, ch < ci → b < ml * hid → wf c ch b =
      ∑ p ∈ Finset.univ.filter (fun p => (p, c) ∈ ids), f p ch * (M p c b / ρ p) := by
    intro c ch b hch hb'
    rw [gpuProj_spec ids nb.ranges g1 ci (ml * hid) hb hf _ f wf b5 c ch b hch hb']
    exact C38_basis_proj ids hnd (fun p c b => M p c b / ρ p) f c ch b
  have h3 : ∑ c, ∑ ch ∈ Finset.range ci, ∑ b ∈ Finset.range (ml * hid),
        (∑ o ∈ Finset.range q, G c (b / hid * q + o) * L.final (b / hid) (ch * hid + b % hid) o) *
          (∑ p ∈ Finset.univ.filter (fun p => (p, c) ∈ ids), f p ch * ((M' p c b * ρ p - M p c b * δ p) / ρ p ^ 2) +
            ∑ p ∈ Finset.univ.filter (fun p => (p, c) ∈ ids), f' p ch * (M p c b / ρ p)) =
      ∑ j : Fin ids.length, ∑ b ∈ Finset.range (ml * hid), bG j.val b *
          ((M' (ids.get j).1 (ids.get j).2 b * ρ (ids.get j).1 - M (ids.get j).1 (ids.get j).2 b * δ (ids.get j).1) /
            ρ (ids.get j).1 ^ 2) +
        ∑ p, ∑ ch ∈ Finset.range ci, fG p ch * f' p ch := by
    refine Eq.trans ?_ h1.symm
    refine Finset.sum_congr rfl fun c _ => Finset.sum_congr rfl fun ch _ => Finset.sum_congr rfl fun b _ => ?_
    rw [C38_basis_proj ids hnd (fun p c b => (M' p c b * ρ p - M p c b * δ p) / ρ p ^ 2) f c ch b,
      C38_basis_proj ids hnd (fun p c b => M p c b / ρ p) f' c ch b]
    unfold MCLayer.gradWf
    rw [hq, l4]
  have h4 : ∑ mi ∈ Finset.range ml, ∑ t ∈ Finset.range (ci * hid), ∑ o ∈ Finset.range q,
        (∑ c, (∑ p ∈ Finset.univ.filter (fun p => (p, c) ∈ ids), f p (t / hid) * (M p c (mi * hid + t % hid) / ρ p)) *
          G c (mi * q + o)) * w' mi t o =
      ∑ mi ∈ Finset.range ml, ∑ t ∈ Finset.range (ci * hid), ∑ o ∈ Finset.range q,
          L.gradFinal wf G mi t o * w' mi t o := by
    refine Finset.sum_congr rfl fun mi hmi => Finset.sum_congr rfl fun t ht => Finset.sum_congr rfl fun o _ => ?_
    rw [Finset.mem_range] at hmi ht
    have hh : 0 < hid := Nat.pos_of_ne_zero fun h => by rw [h] at ht; omega
    unfold MCLayer.gradFinal
    rw [hq, l4]
    refine congrArg (· * w' mi t o) (Finset.sum_congr rfl fun c _ => ?_)
    rw [h2 c _ _ ((Nat.div_lt_iff_lt_mul hh).mpr ht) (sh_mul_add_lt (Nat.mod_lt _ hh) hmi)]
  -- the densities
  have h5 : ∑ p, ∑ d, ptG ((π.symm p).val, d) * x' p d = ∑ i : Fin n, ∑ d, ptG (i.val, d) * x' (π i) d := by
    rw [← Equiv.sum_comp π]
    simp only [Equiv.symm_apply_apply]
  have hpdf' : ∀ j : Fin nb.pairs.length, pdf.getD j.val 0 = ρ (π (nb.pairs.get j).1) := by
    intro j
    have hl : ids.length = nb.pairs.length := by rw [hids, List.length_map]
    have h6 := hpdf ⟨j.val, by rw [hl]; exact j.isLt⟩
    rw [h6]
    congr 1
    have : ∀ (l' : List (Fin n × Fin m)) (hl' : l' = nb.pairs.map (fun p => (π p.1, p.2))) (hj : j.val < l'.length),
        (l'.get ⟨j.val, hj⟩).1 = π (nb.pairs.get j).1 := by
      intro l' hl' hj
      subst hl'
      simp
    exact this ids hids _
  have h7 : ∑ i : Fin n, mcGradPdf nb.pairs (L.mlps * L.hid)
        (fun j b => mlpEval act (b / L.hid) (k + 2) L.layers
          (rowOf (fun d => (x (π (nb.pairs.get j).1) d - y (nb.pairs.get j).2 d) / radius)) (b % L.hid))
        pdf bG i.val * δ (π i) =
      ∑ j : Fin ids.length, -(∑ b ∈ Finset.range (ml * hid), bG j.val b * M (ids.get j).1 (ids.get j).2 b) /
        ρ (ids.get j).1 ^ 2 * δ (ids.get j).1 := by
    rw [sum_map_get nb.pairs (fun p => (π p.1, p.2)) ids hids
      (fun j p => -(∑ b ∈ Finset.range (ml * hid), bG j b * M p.1 p.2 b) / ρ p.1 ^ 2 * δ p.1)]
    unfold mcGradPdf
    simp only [Finset.sum_mul]
    rw [Finset.sum_comm]
    refine Finset.sum_congr rfl fun j _ => ?_
    have e : ∀ i : Fin n, ((nb.pairs.get j).1.val = i.val) = ((nb.pairs.get j).1 = i) := fun i => propext Fin.ext_iff.symm
    simp only [e, ite_mul, zero_mul, Finset.sum_ite_eq, Finset.mem_univ, if_true]
    rw [hpdf' j, l3, l4]
    simp only [hM]
  rw [h3, h4, h5, ← hδG, h7]
  have h8 : ∑ j : Fin ids.length, ∑ b ∈ Finset.range (ml * hid), bG j.val b *
          ((M' (ids.get j).1 (ids.get j).2 b * ρ (ids.get j).1 - M (ids.get j).1 (ids.get j).2 b * δ (ids.get j).1) /
            ρ (ids.get j).1 ^ 2) =
      ∑ j : Fin ids.length, ∑ b ∈ Finset.range (ml * hid), bG j.val b / pdf.getD j.val 0 * M' (ids.get j).1 (ids.get j).2 b +
      ∑ j : Fin ids.length, -(∑ b ∈ Finset.range (ml * hid), bG j.val b * M (ids.get j).1 (ids.get j).2 b) /
        ρ (ids.get j).1 ^ 2 * δ (ids.get j).1 := by
    rw [← Finset.sum_add_distrib]
    refine Finset.sum_congr rfl fun j _ => ?_
    rw [← Finset.sum_neg_distrib, div_eq_mul_inv, Finset.sum_mul, Finset.sum_mul, ← Finset.sum_add_distrib]
    refine Finset.sum_congr rfl fun b _ => ?_
    rw [hpdf j]
    have := hρ0 (ids.get j).1
    field_simp
    ring
  rw [h8]

/-- **C109, MCConv.** Points, features and weights move along any curve that is
differentiable at `θ₀`; at `θ₀` no two points of a batch element are exactly one
radius apart, unless they do not move relative to each other.  Then for every run of the backward pass (search, densities,
projection and both gradient operations, every schedule) at `θ₀`, and every run
of the layer at the other positions, the weighted sum of the outputs is
differentiable at `θ₀`, and its derivative is the sum of the returned gradients
times the velocities of MLP outputs, points (through the densities), features and
final weights. -/
theorem C109_mcconv_partial (act : ℝ → ℝ) (Ws : ℕ) (eps radius bw : ℝ) (hr : 0 < radius) (hbw : 0 < bw) (hW : 0 < Ws)
    (n m : ℕ) (hn : 0 < n) (hm : 0 < m) (hone : n ≤ 512 + Ws * 64) (hone' : m ≤ 512 + Ws * 64) (hk : k ≤ 1)
    (bi : Fin n → ℕ) (bo : Fin m → ℕ) (Bi Bo ci co ml hid : ℕ) (hml : ml ≠ 0) (hdiv : ml ∣ co)
    (hb : opBasisOk (ml * hid) = true) (hf : opFeaturesOk ci = true)
    (θ₀ : ℝ) (x : ℝ → Fin n → Fin (k + 2) → ℝ) (y : ℝ → Fin m → Fin (k + 2) → ℝ) (f : ℝ → Fin n → ℕ → ℝ)
    (L : ℝ → MCLayer ℝ)
    (hL : ∀ θ, (L θ).cin = ci ∧ (L θ).cout = co ∧ (L θ).mlps = ml ∧ (L θ).hid = hid)
    (hin : ∀ p q, bi p = bi q → OffRadius θ₀ radius fun θ d => x θ p d - x θ q d)
    (hout : ∀ p c, bi p = bo c → OffRadius θ₀ radius fun θ d => x θ p d - y θ c d)
    (x' : Fin n → Fin (k + 2) → ℝ) (f' : Fin n → ℕ → ℝ) (M' : Fin n → Fin m → ℕ → ℝ) (w' : ℕ → ℕ → ℕ → ℝ)
    (hx : ∀ p d, HasDerivAt (fun θ => x θ p d) (x' p d) θ₀) (hy : ∀ c d, ContinuousAt (fun θ => y θ c d) θ₀)
    (hfe : ∀ p, ∀ ch < ci, HasDerivAt (fun θ => f θ p ch) (f' p ch) θ₀)
    (hM : ∀ p c, bi p = bo c → ∑ d, (x θ₀ p d - y θ₀ c d) ^ 2 < radius ^ 2 → ∀ b < ml * hid,
      HasDerivAt (fun θ => mlpEval act (b / hid) (k + 2) (L θ).layers
        (rowOf (fun d => (x θ p d - y θ c d) / radius)) (b % hid)) (M' p c b) θ₀)
    (hw : ∀ mi < ml, ∀ t < ci * hid, ∀ o < co / ml, HasDerivAt (fun θ => (L θ).final mi t o) (w' mi t o) θ₀)
    (out : ℝ → Fin m → ℕ → ℝ)
    (hcall : ∀ θ, (L θ).GpuCall act Ws eps ⟨n, x θ, bi, Bi⟩ ⟨m, y θ, bo, Bo⟩ radius bw (f θ) (out θ))
    (G : Fin m → ℕ → ℝ) (ids : List (Fin n × Fin m)) (mG : ℕ → ℕ → ℝ) (xG : Fin n → Fin (k + 2) → ℝ)
    (fG : Fin n → ℕ → ℝ) (wG : ℕ → ℕ → ℕ → ℝ)
    (hback : (L θ₀).GpuBackward act Ws eps ⟨n, x θ₀, bi, Bi⟩ ⟨m, y θ₀, bo, Bo⟩ radius bw (f θ₀) G ids mG xG fG wG) :
    HasDerivAt (fun θ => ∑ c, ∑ o ∈ Finset.range co, G c o * out θ c o)
      (∑ j : Fin ids.length, ∑ b ∈ Finset.range (ml * hid), mG j.val b * M' (ids.get j).1 (ids.get j).2 b +
        ∑ p, ∑ d, xG p d * x' p d + ∑ p, ∑ ch ∈ Finset.range ci, fG p ch * f' p ch +
        ∑ mi ∈ Finset.range ml, ∑ t ∈ Finset.range (ci * hid), ∑ o ∈ Finset.range (co / ml),
          wG mi t o * w' mi t o) θ₀ := by
  obtain ⟨nb, self, B, W, B', W', pdfPts, wf, bG, ptG, b1, rfl, b3, hB, hW', hB', hW'', b4, b5, b6, rfl, rfl, b7, rfl⟩ := hback
  obtain ⟨q, rfl⟩ := hdiv
  have hq : ml * q / ml = q := Nat.mul_div_cancel_left q (by omega)
  rw [hq] at hw ⊢
  obtain ⟨l1, l2, l3, l4⟩ := hL θ₀
  obtain ⟨δ, hδ, hδG⟩ := density_curve Ws n bi Bi x θ₀ x' hx radius eps bw hr hW hn hone (Or.inl hk) hin self b3
  obtain ⟨g1, g2, g3⟩ := gpuIds_spec Ws ⟨n, x θ₀, bi, Bi⟩ ⟨m, y θ₀, bo, Bo⟩ radius eps hr hW hm hone' nb b1
  have hpdf := gpuPdf_spec Ws ⟨n, x θ₀, bi, Bi⟩ radius eps bw hr hW hn hone (Or.inl hk) nb _
    ⟨self, B, W, pdfPts, hB, hW', b3, b4, rfl⟩
  have hnd := g2 (Or.inl hk)
  refine (mc_forward_deriv act Ws eps radius bw hr hbw hW n m hn hm hone hone' hk bi bo Bi Bo ci ml hid q hml hb hf θ₀
    x y f L hL hout x' f' M' w' hx hy hfe hM hw out hcall G _ (fun c => (g3 c).symm) _ (fun _ _ => rfl) _
    (fun _ _ _ _ => rfl) δ hδ).congr_deriv ?_
  have hMf := mc_algebra ci hid ml q (fun c => Finset.univ.filter (fun p : Fin n =>
        (p, c) ∈ gpuIds (⟨⟨n, x θ₀, bi, Bi⟩, fun _ => radius, eps⟩ : Grid (k + 2) ℝ) nb)) (f θ₀) f'
    (fun p c b => mlpEval act (b / hid) (k + 2) (L θ₀).layers
      (rowOf (fun d => (x θ₀ p d - y θ₀ c d) / radius)) (b % hid) /
        density cuGauss ⟨n, x θ₀, bi, Bi⟩ (fun _ => bw) (fun _ => radius) p)
    (fun p c b => (M' p c b * density cuGauss ⟨n, x θ₀, bi, Bi⟩ (fun _ => bw) (fun _ => radius) p -
      mlpEval act (b / hid) (k + 2) (L θ₀).layers
      (rowOf (fun d => (x θ₀ p d - y θ₀ c d) / radius)) (b % hid) * δ p) /
        density cuGauss ⟨n, x θ₀, bi, Bi⟩ (fun _ => bw) (fun _ => radius) p ^ 2)
    (L θ₀).final w' G
  refine hMf.trans ?_
  clear hMf
  exact mc_backward_sum act radius eps bw hr hbw n m hm bi Bi ci ml hid q hml hb hf (x θ₀) (y θ₀) (f θ₀) (L θ₀)
    l1 l2 l3 l4 x' f' M' w' G nb _ wf bG fG ptG (cuPerm (⟨⟨n, x θ₀, bi, Bi⟩, fun _ => radius, eps⟩ : Grid (k + 2) ℝ))
    _ rfl g1 hnd (density cuGauss ⟨n, x θ₀, bi, Bi⟩ (fun _ => bw) (fun _ => radius))
    (fun p => (density_cuGauss_pos (D := k + 1) (⟨n, x θ₀, bi, Bi⟩ : Cloud (Fin (k + 2) → ℝ)) bw radius hbw hr p).ne')
    _ (fun _ _ _ => rfl) hpdf b5 b6 δ (hδG B' W' _ ptG hB' hW'' b7)

/-! ## PointConv and KPConv -/

theorem lin_algebra {n m : ℕ} (ci hid co : ℕ) (N : Fin m → Finset (Fin n)) (f f' : Fin n → ℕ → ℝ)
    (A A' : Fin n → Fin m → ℕ → ℝ) (w w' : ℕ → ℕ → ℝ) (G : Fin m → ℕ → ℝ) :
    ∑ c, ∑ o ∈ Finset.range co, G c o * ∑ p ∈ N c, ∑ ch ∈ Finset.range ci, ∑ b ∈ Finset.range hid,
        ((f' p ch * A p c b + f p ch * A' p c b) * w (ch * hid + b) o + f p ch * A p c b * w' (ch * hid + b) o) =
      ∑ c, ∑ ch ∈ Finset.range ci, ∑ b ∈ Finset.range hid,
        (∑ o ∈ Finset.range co, G c o * w (ch * hid + b) o) *
          (∑ p ∈ N c, f p ch * A' p c b + ∑ p ∈ N c, f' p ch * A p c b) +
      ∑ t ∈ Finset.range (ci * hid), ∑ o ∈ Finset.range co,
        (∑ c, (∑ p ∈ N c, f p (t / hid) * A p c (t % hid)) * G c o) * w' t o := by
  have e1 : ∑ t ∈ Finset.range (ci * hid), ∑ o ∈ Finset.range co,
        (∑ c, (∑ p ∈ N c, f p (t / hid) * A p c (t % hid)) * G c o) * w' t o =
      ∑ c, ∑ ch ∈ Finset.range ci, ∑ b ∈ Finset.range hid, ∑ o ∈ Finset.range co,
        (∑ p ∈ N c, f p ch * A p c b) * G c o * w' (ch * hid + b) o := by
    symm
    rw [Finset.sum_comm, sum_range_mul_blocks]
    refine Finset.sum_congr rfl fun ch _ => ?_
    rw [Finset.sum_comm]
    refine Finset.sum_congr rfl fun b hb => ?_
    rw [Finset.mem_range] at hb
    rw [Finset.sum_comm]
    refine Finset.sum_congr rfl fun o _ => ?_
    rw [Finset.sum_mul, block_div hb, block_mod hb, Nat.add_comm b]
  rw [e1, ← Finset.sum_add_distrib]
  refine Finset.sum_congr rfl fun c _ => ?_
  simp only [Finset.mul_sum]
  rw [Finset.sum_comm' (t' := N c) (s' := fun _ => Finset.range co) (by intro x y; tauto)]
  simp only [← Finset.sum_add_distrib]
  rw [Finset.sum_congr rfl (fun p _ => Finset.sum_comm)]
  rw [Finset.sum_comm]
  refine Finset.sum_congr rfl fun ch _ => ?_
  rw [Finset.sum_congr rfl (fun p _ => Finset.sum_comm)]
  rw [Finset.sum_comm]
  refine Finset.sum_congr rfl fun b _ => ?_
  rw [Finset.sum_comm, Finset.sum_mul, ← Finset.sum_add_distrib]
  refine Finset.sum_congr rfl fun o _ => ?_
  rw [Finset.mul_sum, Finset.sum_mul, Finset.sum_mul, ← Finset.sum_add_distrib]
  refine Finset.sum_congr rfl fun p _ => ?_
  ring

theorem sum_padRow (hid cols : ℕ) (h : hid ≤ cols) (F w : ℕ → ℝ) :
    ∑ b ∈ Finset.range cols, F b * padRow hid w b = ∑ b ∈ Finset.range hid, F b * w b := by
  symm
  refine (Finset.sum_congr rfl fun b hb => ?_).trans (Finset.sum_subset (Finset.range_subset_range.mpr h) ?_)
  · rw [Finset.mem_range] at hb
    unfold padRow
    rw [if_pos hb]
  · intro b _ hb
    rw [Finset.mem_range] at hb
    unfold padRow
    rw [if_neg hb, mul_zero]

/-- A layer that projects and multiplies with a matrix. -/
theorem lin_layer_deriv {n m : ℕ} (hm : 0 < m) (ids : List (Fin n × Fin m)) (hnd : ids.Nodup) (ranges : List ℕ)
    (g1 : RangesDelimit ranges ids) (ci hid cols co : ℕ) (hcols : hid ≤ cols) (hb : opBasisOk cols = true)
    (hf : opFeaturesOk ci = true) (θ₀ : ℝ) (f : ℝ → Fin n → ℕ → ℝ) (A : ℝ → Fin n → Fin m → ℕ → ℝ) (w : ℝ → ℕ → ℕ → ℝ)
    (f' : Fin n → ℕ → ℝ) (A' : Fin n → Fin m → ℕ → ℝ) (w' : ℕ → ℕ → ℝ)
    (hfe : ∀ p, ∀ ch < ci, HasDerivAt (fun θ => f θ p ch) (f' p ch) θ₀)
    (hA : ∀ p c, (p, c) ∈ ids → ∀ b < hid, HasDerivAt (fun θ => A θ p c b) (A' p c b) θ₀)
    (hw : ∀ t < ci * hid, ∀ o < co, HasDerivAt (fun θ => w θ t o) (w' t o) θ₀) (out : ℝ → Fin m → ℕ → ℝ)
    (hout : ∀ᶠ θ in 𝓝 θ₀, ∀ c, ∀ o < co, out θ c o = ∑ p ∈ Finset.univ.filter (fun p => (p, c) ∈ ids),
      ∑ ch ∈ Finset.range ci, ∑ b ∈ Finset.range hid, f θ p ch * A θ p c b * w θ (ch * hid + b) o)
    (G : Fin m → ℕ → ℝ) (gw : Fin m → ℕ → ℕ → ℝ)
    (hgw : ∀ c ch, ∀ b < cols, gw c ch b = padRow hid (fun b => ∑ o ∈ Finset.range co, G c o * w θ₀ (ch * hid + b) o) b)
    (basis : Fin ids.length → ℕ → ℝ)
    (hbas : ∀ j, ∀ b < cols, basis j b = padRow hid (A θ₀ (ids.get j).1 (ids.get j).2) b)
    (wf : Fin m → ℕ → ℕ → ℝ) (bG : ℕ → ℕ → ℝ) (fG : Fin n → ℕ → ℝ)
    (b5 : GpuProj ids ranges ci cols basis (f θ₀) wf) (b6 : GpuProjGrad ids ranges ci cols basis (f θ₀) gw bG fG) :
    HasDerivAt (fun θ => ∑ c, ∑ o ∈ Finset.range co, G c o * out θ c o)
      (∑ j : Fin ids.length, ∑ b ∈ Finset.range hid, bG j.val b * A' (ids.get j).1 (ids.get j).2 b +
        ∑ p, ∑ ch ∈ Finset.range ci, fG p ch * f' p ch +
        ∑ t ∈ Finset.range (ci * hid), ∑ o ∈ Finset.range co, (∑ c, wf c (t / hid) (t % hid) * G c o) * w' t o) θ₀ := by
  have hS : ∀ᶠ θ in 𝓝 θ₀, ∑ c, ∑ o ∈ Finset.range co, G c o * out θ c o =
      ∑ c, ∑ o ∈ Finset.range co, G c o * ∑ p ∈ Finset.univ.filter (fun p => (p, c) ∈ ids),
      ∑ ch ∈ Finset.range ci, ∑ b ∈ Finset.range hid, f θ p ch * A θ p c b * w θ (ch * hid + b) o := by
    filter_upwards [hout] with θ hθ
    refine Finset.sum_congr rfl fun c _ => Finset.sum_congr rfl fun o ho => ?_
    rw [hθ c o (Finset.mem_range.mp ho)]
  refine HasDerivAt.congr_of_eventuallyEq ?_ hS
  have hT : HasDerivAt (fun θ => ∑ c, ∑ o ∈ Finset.range co, G c o * ∑ p ∈ Finset.univ.filter (fun p => (p, c) ∈ ids),
      ∑ ch ∈ Finset.range ci, ∑ b ∈ Finset.range hid, f θ p ch * A θ p c b * w θ (ch * hid + b) o)
      (∑ c, ∑ o ∈ Finset.range co, G c o * ∑ p ∈ Finset.univ.filter (fun p => (p, c) ∈ ids),
        ∑ ch ∈ Finset.range ci, ∑ b ∈ Finset.range hid,
        ((f' p ch * A θ₀ p c b + f θ₀ p ch * A' p c b) * w θ₀ (ch * hid + b) o +
          f θ₀ p ch * A θ₀ p c b * w' (ch * hid + b) o)) θ₀ := by
    refine HasDerivAt.fun_sum fun c _ => HasDerivAt.fun_sum fun o ho => HasDerivAt.const_mul _ ?_
    refine HasDerivAt.fun_sum fun p hp => HasDerivAt.fun_sum fun ch hch => HasDerivAt.fun_sum fun b hb' => ?_
    rw [Finset.mem_range] at ho hch hb'
    rw [Finset.mem_filter] at hp
    exact ((hfe p ch hch).mul (hA p c hp.2 b hb')).mul (hw _ (sh_mul_add_lt hb' hch) o ho)
  refine hT.congr_deriv ?_
  rw [lin_algebra]
  -- the weights
  have hbp : ∀ (φ : Fin n → ℕ → ℝ) c ch b, b < hid → basisProj ids basis φ c ch b =
      ∑ p ∈ Finset.univ.filter (fun p => (p, c) ∈ ids), φ p ch * A θ₀ p c b := by
    intro φ c ch b hb'
    rw [← C38_basis_proj ids hnd (A θ₀) φ c ch b]
    unfold basisProj
    refine congrArg (fun z => segSum z _ _) (funext fun j => ?_)
    rw [hbas j b (by omega)]
    unfold padRow
    rw [if_pos hb']
  have h2 : ∀ c ch b, ch < ci → b < hid → wf c ch b =
      ∑ p ∈ Finset.univ.filter (fun p => (p, c) ∈ ids), f θ₀ p ch * A θ₀ p c b := by
    intro c ch b hch hb'
    rw [gpuProj_spec ids ranges g1 ci cols hb hf _ _ wf b5 c ch b hch (by omega), hbp _ _ _ _ hb']
  have h4 : ∑ t ∈ Finset.range (ci * hid), ∑ o ∈ Finset.range co,
      (∑ c, (∑ p ∈ Finset.univ.filter (fun p => (p, c) ∈ ids), f θ₀ p (t / hid) * A θ₀ p c (t % hid)) * G c o) * w' t o =
      ∑ t ∈ Finset.range (ci * hid), ∑ o ∈ Finset.range co, (∑ c, wf c (t / hid) (t % hid) * G c o) * w' t o := by
    refine Finset.sum_congr rfl fun t ht => Finset.sum_congr rfl fun o _ => ?_
    rw [Finset.mem_range] at ht
    have hh : 0 < hid := Nat.pos_of_ne_zero fun h => by rw [h] at ht; omega
    refine congrArg (· * w' t o) (Finset.sum_congr rfl fun c _ => ?_)
    rw [h2 c _ _ ((Nat.div_lt_iff_lt_mul hh).mpr ht) (Nat.mod_lt _ hh)]
  rw [h4]
  congr 1
  -- basis values and features
  have h1 := gpuProjGrad_spec ids ranges g1 hm ci cols hb hf basis (f θ₀) gw bG fG b6
    (fun j => (fun p c => padRow hid (A' p c)) (ids.get j).1 (ids.get j).2) f'
  have e1 : ∑ j : Fin ids.length, ∑ b ∈ Finset.range cols, bG j.val b * padRow hid (A' (ids.get j).1 (ids.get j).2) b =
      ∑ j : Fin ids.length, ∑ b ∈ Finset.range hid, bG j.val b * A' (ids.get j).1 (ids.get j).2 b :=
    Finset.sum_congr rfl fun j _ => sum_padRow hid cols hcols _ _
  rw [← e1]
  refine Eq.trans ?_ h1.symm
  refine Finset.sum_congr rfl fun c _ => Finset.sum_congr rfl fun ch _ => ?_
  have e2 : ∀ b ∈ Finset.range cols, gw c ch b * (basisProj ids (fun j => (fun p c => padRow hid (A' p c)) (ids.get j).1 (ids.get j).2)
      (f θ₀) c ch b + basisProj ids basis f' c ch b) =
      (basisProj ids (fun j => (fun p c => padRow hid (A' p c)) (ids.get j).1 (ids.get j).2)
      (f θ₀) c ch b + basisProj ids basis f' c ch b) *
        padRow hid (fun b => ∑ o ∈ Finset.range co, G c o * w θ₀ (ch * hid + b) o) b := by
    intro b hb'
    rw [hgw c ch b (Finset.mem_range.mp hb'), mul_comm]
  rw [Finset.sum_congr rfl e2, sum_padRow hid cols hcols]
  refine Finset.sum_congr rfl fun b hb' => ?_
  rw [Finset.mem_range] at hb'
  rw [C38_basis_proj ids hnd (fun p c => padRow hid (A' p c)) (f θ₀) c ch b, hbp _ _ _ _ hb', mul_comm]
  congr 2
  refine Finset.sum_congr rfl fun p _ => ?_
  unfold padRow
  rw [if_pos hb']

theorem pos_of_opBasisOk {b : ℕ} (h : opBasisOk b = true) : 0 < b := by
  rcases Nat.eq_zero_or_pos b with h0 | h0
  · rw [h0] at h; exact absurd h (by decide)
  · exact h0

/-- The densities of the neighbours and their maximum, as the backward pass of
`PointConv` uses them. -/
theorem gpuPc_basis (act : ℝ → ℝ) (Ws : ℕ) (eps : ℝ) (L : PCLayer ℝ) (cin cout : Cloud (Fin (k + 2) → ℝ))
    (radius bw : ℝ) (hr : 0 < radius) (hW : 0 < Ws) (hin : 0 < cin.n) (hone : cin.n ≤ 512 + Ws * 64) (hk : k ≤ 1)
    (nb : Pairs cin.n cout.n) (pdf : List ℝ)
    (h2 : GpuPdf Ws (⟨cin, fun _ => radius, eps⟩ : Grid (k + 2) ℝ) (fun _ => radius) (fun _ => bw) nb pdf)
    (ids : List (Fin cin.n × Fin cout.n)) (hids : ids = gpuIds (⟨cin, fun _ => radius, eps⟩ : Grid (k + 2) ℝ) nb)
    (hN : ∀ c, Finset.univ.filter (fun p => (p, c) ∈ ids) = nbrs cin cout radius c) (j : Fin ids.length) (b : ℕ) :
    act (∑ i ∈ Finset.range (k + 2), rowOf (fun d => cin.pts (ids.get j).1 d - cout.pts (ids.get j).2 d) i *
            L.axis i b + L.bias b) /
          L.pdfTransform (pdf.getD j.val 0 /
            (segMax (fun i : Fin ids.length => pdf.getD i.val 0) (fun i => (ids.get i).2.val) (ids.get j).2.val).getD 0) =
      act (∑ i ∈ Finset.range (k + 2), rowOf (fun d => cin.pts (ids.get j).1 d - cout.pts (ids.get j).2 d) i *
            L.axis i b + L.bias b) /
        densityNet L.pw1 L.pb1 L.pw2 L.pb2 (density cuGauss cin (fun _ => bw) (fun _ => radius) (ids.get j).1 /
          maxOver (nbrs cin cout radius (ids.get j).2) (density cuGauss cin (fun _ => bw) (fun _ => radius))) := by
  subst hids
  have hp := gpuPdf_spec Ws cin radius eps bw hr hW hin hone (Or.inl hk) nb pdf h2
  rw [pdfTransform_eq, ← hN, ← segMax_pairs]
  simp only [hp]

/-- The output of `PointConv` on the GPU. -/
theorem gpuPc_formula (act : ℝ → ℝ) (Ws : ℕ) (eps : ℝ) (L : PCLayer ℝ)
    (cin cout : Cloud (Fin (k + 2) → ℝ)) (radius bw : ℝ) (hr : 0 < radius)
    (hW : 0 < Ws) (hin : 0 < cin.n) (hn : 0 < cout.n) (hone : cin.n ≤ 512 + Ws * 64)
    (hone' : cout.n ≤ 512 + Ws * 64) (hk : k ≤ 1)
    (hb : opBasisOk L.hid = true) (hf : opFeaturesOk L.cin = true) (f : Fin cin.n → ℕ → ℝ)
    (out : Fin cout.n → ℕ → ℝ) (h : L.GpuCall act Ws eps cin cout radius bw f out) (c : Fin cout.n) (o : ℕ) :
    out c o = pcSpec cuGauss act L cin cout radius bw f c o := by
  obtain ⟨nb, pdf, wf, h1, h2, h3, rfl⟩ := h
  obtain ⟨g1, g2, g3⟩ := gpuIds_spec Ws cin cout radius eps hr hW hn hone' nb h1
  have hp := gpuPdf_spec Ws cin radius eps bw hr hW hin hone (Or.inl hk) nb pdf h2
  have hh := pos_of_opBasisOk hb
  have e1 : ∑ x ∈ Finset.range (L.cin * L.hid), wf c (x / L.hid) (x % L.hid) * L.weights x o =
      L.conv act (k + 2) (gpuIds (⟨cin, fun _ => radius, eps⟩ : Grid (k + 2) ℝ) nb)
        (fun j => rowOf (fun d => cin.pts (List.get _ j).1 d - cout.pts (List.get _ j).2 d))
        (fun j => pdf.getD j.val 0) f c o := by
    unfold PCLayer.conv
    dsimp only
    refine Finset.sum_congr rfl fun x hx => ?_
    rw [Finset.mem_range] at hx
    rw [gpuProj_spec _ _ g1 _ _ hb hf _ _ _ h3 c _ _ ((Nat.div_lt_iff_lt_mul hh).mpr hx) (Nat.mod_lt x hh)]
  refine e1.trans ?_
  simp only [hp]
  refine (pcConv_eq act L (k + 2) _ (g2 (Or.inl hk))
    (fun p c => rowOf (fun d => cin.pts p d - cout.pts c d))
    (fun p => density cuGauss cin (fun _ => bw) (fun _ => radius) p) f c o).trans ?_
  rw [g3 c]
  rfl

/-- **C109, PointConv.** As for MCConv, with the gradients of the basis values (the
kernel MLP divided by the transformed density), the features and the weights; the
derivative of the basis values, which TensorFlow computes, is a hypothesis. -/
theorem C109_pointconv_partial (act : ℝ → ℝ) (Ws : ℕ) (eps radius bw : ℝ) (hr : 0 < radius) (hW : 0 < Ws)
    (n m : ℕ) (hn : 0 < n) (hm : 0 < m) (hone : n ≤ 512 + Ws * 64) (hone' : m ≤ 512 + Ws * 64) (hk : k ≤ 1)
    (bi : Fin n → ℕ) (bo : Fin m → ℕ) (Bi Bo ci co hid : ℕ)
    (hb : opBasisOk hid = true) (hf : opFeaturesOk ci = true)
    (θ₀ : ℝ) (x : ℝ → Fin n → Fin (k + 2) → ℝ) (y : ℝ → Fin m → Fin (k + 2) → ℝ) (f : ℝ → Fin n → ℕ → ℝ)
    (L : ℝ → PCLayer ℝ) (hL : ∀ θ, (L θ).cin = ci ∧ (L θ).hid = hid)
    (hout : ∀ p c, bi p = bo c → OffRadius θ₀ radius fun θ d => x θ p d - y θ c d)
    (f' : Fin n → ℕ → ℝ) (A' : Fin n → Fin m → ℕ → ℝ) (w' : ℕ → ℕ → ℝ)
    (hx : ∀ p d, ContinuousAt (fun θ => x θ p d) θ₀) (hy : ∀ c d, ContinuousAt (fun θ => y θ c d) θ₀)
    (hfe : ∀ p, ∀ ch < ci, HasDerivAt (fun θ => f θ p ch) (f' p ch) θ₀)
    (hA : ∀ p c, bi p = bo c → ∑ d, (x θ₀ p d - y θ₀ c d) ^ 2 < radius ^ 2 → ∀ b < hid,
      HasDerivAt (fun θ => act (∑ i ∈ Finset.range (k + 2), rowOf (fun d => x θ p d - y θ c d) i *
            (L θ).axis i b + (L θ).bias b) /
        densityNet (L θ).pw1 (L θ).pb1 (L θ).pw2 (L θ).pb2
          (density cuGauss ⟨n, x θ, bi, Bi⟩ (fun _ => bw) (fun _ => radius) p /
          maxOver (nbrs ⟨n, x θ, bi, Bi⟩ ⟨m, y θ, bo, Bo⟩ radius c)
            (density cuGauss ⟨n, x θ, bi, Bi⟩ (fun _ => bw) (fun _ => radius)))) (A' p c b) θ₀)
    (hw : ∀ t < ci * hid, ∀ o < co, HasDerivAt (fun θ => (L θ).weights t o) (w' t o) θ₀)
    (out : ℝ → Fin m → ℕ → ℝ)
    (hcall : ∀ θ, (L θ).GpuCall act Ws eps ⟨n, x θ, bi, Bi⟩ ⟨m, y θ, bo, Bo⟩ radius bw (f θ) (out θ))
    (G : Fin m → ℕ → ℝ) (ids : List (Fin n × Fin m)) (bG : ℕ → ℕ → ℝ) (fG : Fin n → ℕ → ℝ) (wG : ℕ → ℕ → ℝ)
    (hback : (L θ₀).GpuBackward act Ws eps co ⟨n, x θ₀, bi, Bi⟩ ⟨m, y θ₀, bo, Bo⟩ radius bw (f θ₀) G ids bG fG wG) :
    HasDerivAt (fun θ => ∑ c, ∑ o ∈ Finset.range co, G c o * out θ c o)
      (∑ j : Fin ids.length, ∑ b ∈ Finset.range hid, bG j.val b * A' (ids.get j).1 (ids.get j).2 b +
        ∑ p, ∑ ch ∈ Finset.range ci, fG p ch * f' p ch +
        ∑ t ∈ Finset.range (ci * hid), ∑ o ∈ Finset.range co, wG t o * w' t o) θ₀ := by
  obtain ⟨nb, pdf, wf, b1, hids, b3, b5, b6, rfl⟩ := hback
  obtain ⟨l1, l2⟩ := hL θ₀
  obtain ⟨g1, g2, g3⟩ := gpuIds_spec Ws ⟨n, x θ₀, bi, Bi⟩ ⟨m, y θ₀, bo, Bo⟩ radius eps hr hW hm hone' nb b1
  have hbas := gpuPc_basis act Ws eps (L θ₀) ⟨n, x θ₀, bi, Bi⟩ ⟨m, y θ₀, bo, Bo⟩ radius bw hr hW hn hone hk nb pdf b3 ids hids
    (by rw [hids]; exact g3)
  rw [← hids] at g1 g2 g3
  have hm' : ∀ p c, (p, c) ∈ ids → bi p = bo c ∧ ∑ d, (x θ₀ p d - y θ₀ c d) ^ 2 < radius ^ 2 := by
    intro p c hpc
    have h1 : p ∈ Finset.univ.filter (fun p => (p, c) ∈ ids) := by simpa using hpc
    have h1' : p ∈ nbrs (⟨n, x θ₀, bi, Bi⟩ : Cloud (Fin (k + 2) → ℝ)) ⟨m, y θ₀, bo, Bo⟩ radius c := by
      rw [← g3 c]; exact h1
    obtain ⟨h2, _, h3⟩ := (mem_nbrs (⟨n, x θ₀, bi, Bi⟩ : Cloud (Fin (k + 2) → ℝ)) ⟨m, y θ₀, bo, Bo⟩ radius c p).mp h1'
    exact ⟨h2, by simpa [pow_two] using h3⟩
  rw [l1, l2] at b5 b6
  have key := lin_layer_deriv hm ids (g2 (Or.inl hk)) nb.ranges g1 ci hid hid co le_rfl hb hf θ₀ f
    (fun θ p c b => act (∑ i ∈ Finset.range (k + 2), rowOf (fun d => x θ p d - y θ c d) i *
            (L θ).axis i b + (L θ).bias b) /
        densityNet (L θ).pw1 (L θ).pb1 (L θ).pw2 (L θ).pb2
          (density cuGauss ⟨n, x θ, bi, Bi⟩ (fun _ => bw) (fun _ => radius) p /
          maxOver (nbrs ⟨n, x θ, bi, Bi⟩ ⟨m, y θ, bo, Bo⟩ radius c)
            (density cuGauss ⟨n, x θ, bi, Bi⟩ (fun _ => bw) (fun _ => radius)))) (fun θ => (L θ).weights) f' A' w' hfe
    (fun p c hpc b hb' => hA p c (hm' p c hpc).1 (hm' p c hpc).2 b hb') hw out (by
      filter_upwards [eventually_nbrs n m bi bo Bi Bo x y θ₀ radius hx hy hout] with θ hθ c o ho
      obtain ⟨t1, t2⟩ := hL θ
      rw [gpuPc_formula act Ws eps (L θ) ⟨n, x θ, bi, Bi⟩ ⟨m, y θ, bo, Bo⟩ radius bw hr hW hn hm hone hone' hk
        (by rw [t2]; exact hb) (by rw [t1]; exact hf) (f θ) (out θ) (hcall θ) c o]
      unfold pcSpec
      rw [t1, t2]
      refine Finset.sum_congr ?_ fun p _ => rfl
      rw [hθ c, ← g3 c]) G ((L θ₀).gradWf co G) (fun c ch b hb' => by
        unfold PCLayer.gradWf padRow
        rw [if_pos hb', l2]) _ (fun j b hb' => by
        rw [hbas j b]
        unfold padRow
        rw [if_pos hb']) wf bG fG b5 b6
  refine key.congr_deriv ?_
  unfold PCLayer.gradWeights
  rw [l2]

/-- A rigid call, as a formula. -/
theorem gpuKp_formula (Ws : ℕ) (eps : ℝ) (L : KPLayer (k + 2)) (cin cout : Cloud (Fin (k + 2) → ℝ)) (radius : ℝ)
    (influence : Option ℝ) (hr : 0 < radius) (hW : 0 < Ws) (hn : 0 < cout.n) (hone : cout.n ≤ 512 + Ws * 64) (hk : k ≤ 1)
    (hnk : 0 < L.nk) (hnk' : L.nk ≤ 64) (hkp : L.nkp = L.nk) (hrigid : L.offs = none) (hf : opFeaturesOk L.cin = true)
    (f : Fin cin.n → ℕ → ℝ) (out : ℕ → ℕ → ℝ)
    (h : L.GpuCall Ws eps cin cout radius influence f (.ok (cout.n, out))) (c : Fin cout.n) (o : ℕ) :
    out c.val o = ∑ p ∈ nbrs cin cout radius c, ∑ ch ∈ Finset.range L.cin, ∑ b ∈ Finset.range L.nk,
      f p ch * L.interp.weight (norm2 (fun d => (cin.pts p d - cout.pts c d) / radius - L.kp b d))
        (kpSigma influence radius) * L.weights (ch * L.nk + b) o := by
  have hcin : 0 < L.cin := by
    rcases Nat.eq_zero_or_pos L.cin with h | h
    · rw [h] at hf; exact absurd hf (by decide)
    · exact h
  have hb : opBasisOk (L.nk + padCols L.nk) = true := (C39_padded_count L.nk).mpr hnk'
  obtain ⟨nb, q1, q2⟩ := h
  obtain ⟨s1, s2, s3⟩ := gpuIds_spec Ws cin cout radius eps hr hW hn hone nb q1
  have h3 := gpuKpConv_eq L _ _ _ s1 (by rw [hkp]; exact hb) hf _ f _ q2
  obtain ⟨out', ho', hv⟩ := kpConv_eq L (kpSigma influence radius) hcin hnk hkp _ (s2 (Or.inl hk))
    (nbrs cin cout radius) s3 (fun p c d => (cin.pts p d - cout.pts c d) / radius) f
  have h4 := h3.trans ho'
  injection h4 with h5
  injection h5 with _ h6
  rw [h6, hv c o]
  unfold kpOffOf
  rw [hrigid]
  simp only [add_zero]

/-- **C109, KPConv** (rigid).  With the gradients of the weights of the kernel
points, the features and the weights; the derivative of the kernel point weights,
which TensorFlow computes, is a hypothesis. -/
theorem C109_kpconv_partial (Ws : ℕ) (eps radius : ℝ) (influence : Option ℝ) (hr : 0 < radius) (hW : 0 < Ws)
    (n m : ℕ) (hm : 0 < m) (hone' : m ≤ 512 + Ws * 64) (hk : k ≤ 1)
    (bi : Fin n → ℕ) (bo : Fin m → ℕ) (Bi Bo ci co nk : ℕ) (hnk : 0 < nk) (hnk' : nk ≤ 64) (hf : opFeaturesOk ci = true)
    (θ₀ : ℝ) (x : ℝ → Fin n → Fin (k + 2) → ℝ) (y : ℝ → Fin m → Fin (k + 2) → ℝ) (f : ℝ → Fin n → ℕ → ℝ)
    (L : ℝ → KPLayer (k + 2)) (hL : ∀ θ, (L θ).cin = ci ∧ (L θ).nk = nk ∧ (L θ).nkp = nk ∧ (L θ).offs = none)
    (hout : ∀ p c, bi p = bo c → OffRadius θ₀ radius fun θ d => x θ p d - y θ c d)
    (f' : Fin n → ℕ → ℝ) (A' : Fin n → Fin m → ℕ → ℝ) (w' : ℕ → ℕ → ℝ)
    (hx : ∀ p d, ContinuousAt (fun θ => x θ p d) θ₀) (hy : ∀ c d, ContinuousAt (fun θ => y θ c d) θ₀)
    (hfe : ∀ p, ∀ ch < ci, HasDerivAt (fun θ => f θ p ch) (f' p ch) θ₀)
    (hA : ∀ p c, bi p = bo c → ∑ d, (x θ₀ p d - y θ₀ c d) ^ 2 < radius ^ 2 → ∀ b < nk,
      HasDerivAt (fun θ => (L θ).interp.weight (norm2 (fun d => (x θ p d - y θ c d) / radius - (L θ).kp b d))
        (kpSigma influence radius)) (A' p c b) θ₀)
    (hw : ∀ t < ci * nk, ∀ o < co, HasDerivAt (fun θ => (L θ).weights t o) (w' t o) θ₀)
    (out : ℝ → ℕ → ℕ → ℝ)
    (hcall : ∀ θ, (L θ).GpuCall Ws eps ⟨n, x θ, bi, Bi⟩ ⟨m, y θ, bo, Bo⟩ radius influence (f θ) (.ok (m, out θ)))
    (G : Fin m → ℕ → ℝ) (ids : List (Fin n × Fin m)) (bG : ℕ → ℕ → ℝ) (fG : Fin n → ℕ → ℝ) (wG : ℕ → ℕ → ℝ)
    (hback : (L θ₀).GpuBackward Ws eps co ⟨n, x θ₀, bi, Bi⟩ ⟨m, y θ₀, bo, Bo⟩ radius influence (f θ₀) G ids bG fG wG) :
    HasDerivAt (fun θ => ∑ c : Fin m, ∑ o ∈ Finset.range co, G c o * out θ c.val o)
      (∑ j : Fin ids.length, ∑ b ∈ Finset.range nk, bG j.val b * A' (ids.get j).1 (ids.get j).2 b +
        ∑ p, ∑ ch ∈ Finset.range ci, fG p ch * f' p ch +
        ∑ t ∈ Finset.range (ci * nk), ∑ o ∈ Finset.range co, wG t o * w' t o) θ₀ := by
  have hcin : 0 < ci := by
    rcases Nat.eq_zero_or_pos ci with h | h
    · rw [h] at hf; exact absurd hf (by decide)
    · exact h
  have hb : opBasisOk (nk + padCols nk) = true := (C39_padded_count nk).mpr hnk'
  obtain ⟨nb, wf, b1, hids, b5, b6, rfl⟩ := hback
  obtain ⟨l1, l2, l3, l4⟩ := hL θ₀
  obtain ⟨g1, g2, g3⟩ := gpuIds_spec Ws ⟨n, x θ₀, bi, Bi⟩ ⟨m, y θ₀, bo, Bo⟩ radius eps hr hW hm hone' nb b1
  rw [← hids] at g1 g2 g3
  have hm' : ∀ p c, (p, c) ∈ ids → bi p = bo c ∧ ∑ d, (x θ₀ p d - y θ₀ c d) ^ 2 < radius ^ 2 := by
    intro p c hpc
    have h1 : p ∈ Finset.univ.filter (fun p => (p, c) ∈ ids) := by simpa using hpc
    have h1' : p ∈ nbrs (⟨n, x θ₀, bi, Bi⟩ : Cloud (Fin (k + 2) → ℝ)) ⟨m, y θ₀, bo, Bo⟩ radius c := by
      rw [← g3 c]; exact h1
    obtain ⟨h2, _, h3⟩ := (mem_nbrs (⟨n, x θ₀, bi, Bi⟩ : Cloud (Fin (k + 2) → ℝ)) ⟨m, y θ₀, bo, Bo⟩ radius c p).mp h1'
    exact ⟨h2, by simpa [pow_two] using h3⟩
  rw [l1, l2, l3] at b5 b6
  have key := lin_layer_deriv hm ids (g2 (Or.inl hk)) nb.ranges g1 ci nk (nk + padCols nk) co (Nat.le_add_right _ _)
    hb hf θ₀ f
    (fun θ p c b => (L θ).interp.weight (norm2 (fun d => (x θ p d - y θ c d) / radius - (L θ).kp b d))
        (kpSigma influence radius)) (fun θ => (L θ).weights) f' A' w' hfe
    (fun p c hpc b hb' => hA p c (hm' p c hpc).1 (hm' p c hpc).2 b hb') hw (fun θ c => out θ c.val) (by
      filter_upwards [eventually_nbrs n m bi bo Bi Bo x y θ₀ radius hx hy hout] with θ hθ c o ho
      obtain ⟨t1, t2, t3, t4⟩ := hL θ
      have h7 := gpuKp_formula Ws eps (L θ) ⟨n, x θ, bi, Bi⟩ ⟨m, y θ, bo, Bo⟩ radius influence hr hW hm hone' hk
        (by rw [t2]; exact hnk) (by rw [t2]; exact hnk') (by rw [t2, t3]) t4 (by rw [t1]; exact hf) (f θ) (out θ) (hcall θ) c o
      refine h7.trans ?_
      rw [t1, t2, hθ c, ← g3 c]) G ((L θ₀).gradWf co G) (fun c ch b hb' => by
        unfold KPLayer.gradWf padRow
        rw [l2]) _ (fun j b hb' => by
        unfold padRow KPLayer.weightRow
        simp only [add_zero]) wf bG fG b5 b6
  refine key.congr_deriv ?_
  unfold KPLayer.gradWeights
  rw [l2]

/-! ## the backward passes have runs -/

/-- Every call has a backward run. -/
theorem C109_runs (act : ℝ → ℝ) (Ws : ℕ) (eps : ℝ) (cin cout : Cloud (Fin (k + 2) → ℝ))
    (radius bw : ℝ) (hr : 0 < radius) (hW : 0 < Ws) (hin : 0 < cin.n) (hn : 0 < cout.n)
    (hone : cin.n ≤ 512 + Ws * 64) (hone' : cout.n ≤ 512 + Ws * 64) (f : Fin cin.n → ℕ → ℝ) (G : Fin cout.n → ℕ → ℝ) :
    (∀ L : MCLayer ℝ, ∃ ids mG xG fG wG, L.GpuBackward act Ws eps cin cout radius bw f G ids mG xG fG wG) ∧
    (∀ (L : PCLayer ℝ) (co : ℕ), ∃ ids bG fG wG, L.GpuBackward act Ws eps co cin cout radius bw f G ids bG fG wG) ∧
    (∀ (L : KPLayer (k + 2)) (co : ℕ) (influence : Option ℝ), ∃ ids bG fG wG,
      L.GpuBackward Ws eps co cin cout radius influence f G ids bG fG wG) := by
  obtain ⟨nb, h1⟩ := gpuFind_exists Ws (⟨cin, fun _ => radius, eps⟩ : Grid (k + 2) ℝ) cout (fun _ => radius)
    (fun _ => hr) (fun _ => le_rfl) hW hn hone'
  refine ⟨fun L => ?_, fun L co => ?_, fun L co influence => ?_⟩
  · obtain ⟨self, h2⟩ := gpuFind_exists Ws (⟨cin, fun _ => radius, eps⟩ : Grid (k + 2) ℝ)
      (⟨cin, fun _ => radius, eps⟩ : Grid (k + 2) ℝ).cuSorted (fun _ => radius) (fun _ => hr) (fun _ => le_rfl) hW hin hone
    obtain ⟨pdfPts, h3⟩ := exists_pdfFwd (pdfArgs (⟨cin, fun _ => radius, eps⟩ : Grid (k + 2) ℝ).cuSorted.pts self.pairs
      (fun i => self.ranges.getD i 0) (fun _ => bw) (fun _ => radius)) KDEMode.constant.value 1 1
    obtain ⟨wf, h4⟩ := gpuProj_exists (gpuIds (⟨cin, fun _ => radius, eps⟩ : Grid (k + 2) ℝ) nb) nb.ranges L.cin (L.mlps * L.hid)
      (fun j => L.basis act (k + 2) (rowOf (fun d => (cin.pts (List.get _ j).1 d - cout.pts (List.get _ j).2 d) / radius))
        ((nb.pairs.map (fun p => pdfPts p.1.val)).getD j.val 0)) f
    obtain ⟨bG, fG, h5⟩ := gpuProjGrad_exists (gpuIds (⟨cin, fun _ => radius, eps⟩ : Grid (k + 2) ℝ) nb) nb.ranges L.cin
      (L.mlps * L.hid)
      (fun j => L.basis act (k + 2) (rowOf (fun d => (cin.pts (List.get _ j).1 d - cout.pts (List.get _ j).2 d) / radius))
        ((nb.pairs.map (fun p => pdfPts p.1.val)).getD j.val 0)) f (L.gradWf G)
    obtain ⟨ptG, h6⟩ := exists_pdfGrad (pdfArgs (⟨cin, fun _ => radius, eps⟩ : Grid (k + 2) ℝ).cuSorted.pts self.pairs
      (fun i => self.ranges.getD i 0) (fun _ => bw) (fun _ => radius)) KDEMode.constant.value 1 1
      (mcGradPdf nb.pairs (L.mlps * L.hid)
        (fun j b => mlpEval act (b / L.hid) (k + 2) L.layers
          (rowOf (fun d => (cin.pts (cuPerm (⟨cin, fun _ => radius, eps⟩ : Grid (k + 2) ℝ) (nb.pairs.get j).1) d -
            cout.pts (nb.pairs.get j).2 d) / radius)) (b % L.hid))
        (nb.pairs.map (fun p => pdfPts p.1.val)) bG)
    exact ⟨_, _, _, fG, _, nb, self, 1, 1, 1, 1, pdfPts, wf, bG, ptG, h1, rfl, h2, one_pos, one_pos, one_pos, one_pos,
      h3, h4, h5, rfl, rfl, h6, rfl⟩
  · obtain ⟨pdf, h2⟩ := gpuPdf_exists Ws cin radius eps bw hr hW hin hone nb
    obtain ⟨wf, h4⟩ := gpuProj_exists (gpuIds (⟨cin, fun _ => radius, eps⟩ : Grid (k + 2) ℝ) nb) nb.ranges L.cin L.hid
      (fun j b =>
        act (∑ i ∈ Finset.range (k + 2), rowOf (fun d => cin.pts (List.get _ j).1 d - cout.pts (List.get _ j).2 d) i *
            L.axis i b + L.bias b) /
          L.pdfTransform (pdf.getD j.val 0 /
            (segMax (fun i : Fin (gpuIds (⟨cin, fun _ => radius, eps⟩ : Grid (k + 2) ℝ) nb).length => pdf.getD i.val 0)
              (fun i => (List.get _ i).2.val) (List.get _ j).2.val).getD 0)) f
    obtain ⟨bG, fG, h5⟩ := gpuProjGrad_exists (gpuIds (⟨cin, fun _ => radius, eps⟩ : Grid (k + 2) ℝ) nb) nb.ranges L.cin L.hid
      (fun j b =>
        act (∑ i ∈ Finset.range (k + 2), rowOf (fun d => cin.pts (List.get _ j).1 d - cout.pts (List.get _ j).2 d) i *
            L.axis i b + L.bias b) /
          L.pdfTransform (pdf.getD j.val 0 /
            (segMax (fun i : Fin (gpuIds (⟨cin, fun _ => radius, eps⟩ : Grid (k + 2) ℝ) nb).length => pdf.getD i.val 0)
              (fun i => (List.get _ i).2.val) (List.get _ j).2.val).getD 0)) f (L.gradWf co G)
    exact ⟨_, bG, fG, _, nb, pdf, wf, h1, rfl, h2, h4, h5, rfl⟩
  · obtain ⟨wf, h4⟩ := gpuProj_exists (gpuIds (⟨cin, fun _ => radius, eps⟩ : Grid (k + 2) ℝ) nb) nb.ranges L.cin
      (L.nkp + padCols L.nk)
      (fun j => padRow L.nkp (L.weightRow (kpSigma influence radius)
        (fun d => (cin.pts (List.get _ j).1 d - cout.pts (List.get _ j).2 d) / radius) (fun _ _ => 0))) f
    obtain ⟨bG, fG, h5⟩ := gpuProjGrad_exists (gpuIds (⟨cin, fun _ => radius, eps⟩ : Grid (k + 2) ℝ) nb) nb.ranges L.cin
      (L.nkp + padCols L.nk)
      (fun j => padRow L.nkp (L.weightRow (kpSigma influence radius)
        (fun d => (cin.pts (List.get _ j).1 d - cout.pts (List.get _ j).2 d) / radius) (fun _ _ => 0))) f (L.gradWf co G)
    exact ⟨_, bG, fG, _, nb, wf, h1, rfl, h4, h5, rfl⟩

end

/-! ## on the boundary of a neighbourhood -/

/-- A point that crosses the radius. -/
noncomputable abbrev exCrossX (θ : ℝ) (_ : Fin 1) (d : Fin 2) : ℝ := if d = 0 then 1 + θ else 0

noncomputable abbrev exCrossKP : KPLayer 2 := ⟨1, 1, 1, fun _ _ => 0, .gaussian, fun _ _ => 1, none⟩

theorem exCross_nbrs (θ : ℝ) (hθ : -1 < θ) (c p : Fin 1) :
    p ∈ nbrs (⟨1, exCrossX θ, fun _ => 0, 1⟩ : Cloud (Fin 2 → ℝ)) ⟨1, fun _ _ => 0, fun _ => 0, 1⟩ 1 c ↔ θ < 0 := by
  rw [mem_nbrs]
  unfold IsNeighbor normLt
  simp only [Fin.sum_univ_two, exCrossX]
  norm_num
  constructor
  · intro h
    by_contra h0
    nlinarith
  · intro h
    nlinarith

/-- **C109 fails for a pair exactly one radius apart**: although every coordinate is
differentiable, the output of a layer jumps when a point crosses the radius, so that
it has no derivative; the backward pass returns a gradient all the same
(`C109_runs`). -/
theorem C109_kpconv_false : ¬ ∀ (L : KPLayer 2) (x : ℝ → Fin 1 → Fin 2 → ℝ) (f : Fin 1 → ℕ → ℝ) (out : ℝ → ℕ → ℕ → ℝ),
    (∀ p d, Differentiable ℝ (fun θ => x θ p d)) →
    (∀ θ, L.GpuCall (k := 0) 1 (1 / 100) ⟨1, x θ, fun _ => 0, 1⟩ ⟨1, fun _ _ => 0, fun _ => 0, 1⟩ 1 none f (.ok (1, out θ))) →
    DifferentiableAt ℝ (fun θ => out θ 0 0) 0 := by
  intro hall
  have hok : ∀ θ, LayerOk (⟨1, exCrossX θ, fun _ => 0, 1⟩ : Cloud (Fin 2 → ℝ)) ⟨1, fun _ _ => 0, fun _ => 0, 1⟩ 1 (1 / 100) :=
    fun θ => ⟨fun _ => Nat.zero_lt_one, one_pos, by norm_num⟩
  have hc : ∀ θ, ∃ out : ℕ → ℕ → ℝ, exCrossKP.GpuCall (k := 0) 1 (1 / 100) ⟨1, exCrossX θ, fun _ => 0, 1⟩
      ⟨1, fun _ _ => 0, fun _ => 0, 1⟩ 1 none (fun _ _ => 1) (.ok (1, out)) := by
    intro θ
    obtain ⟨res, h1⟩ := C108_kpconv_runs (k := 0) 1 (1 / 100) exCrossKP ⟨1, exCrossX θ, fun _ => 0, 1⟩
      ⟨1, fun _ _ => 0, fun _ => 0, 1⟩ 1 none one_pos one_pos (by norm_num) (by norm_num) (fun _ _ => 1)
    obtain ⟨tf, h2⟩ := C41_kpconv_returns (k := 0) (1 / 100) exCrossKP _ _ 1 (hok θ) none (by norm_num)
      (by norm_num) rfl (by norm_num) (fun _ => Nat.zero_lt_one) (fun _ _ => 1)
    obtain ⟨out, h3, _, _⟩ := C108_kpconv_partial (k := 0) 1 .gpu (1 / 100) exCrossKP _ _ 1 (hok θ) none
      (by norm_num) (by norm_num) rfl one_pos (by norm_num) (by norm_num) (Or.inl (by norm_num))
      (show opFeaturesOk 1 = true by decide) _ res _ h1 h2
    subst h3
    exact ⟨out, h1⟩
  choose out hout using hc
  have hd := hall exCrossKP exCrossX (fun _ _ => 1) out (fun p d => by
    fin_cases d <;> simp [exCrossX] <;> fun_prop) hout
  have hval : ∀ θ, -1 < θ → out θ 0 0 = if θ < 0 then Real.exp (-(norm2 (exCrossX θ 0) / (1 / 3)) ^ 2) else 0 := by
    intro θ hθ
    have h := gpuKp_formula (k := 0) 1 (1 / 100) exCrossKP ⟨1, exCrossX θ, fun _ => 0, 1⟩
      ⟨1, fun _ _ => 0, fun _ => 0, 1⟩ 1 none one_pos one_pos (by norm_num) (by norm_num) (by norm_num) (by norm_num) (by norm_num) rfl rfl
      (show opFeaturesOk 1 = true by decide) (fun _ _ => 1) (out θ) (hout θ) (0 : Fin 1) 0
    refine h.trans ?_
    by_cases h0 : θ < 0
    · have hn : nbrs (⟨1, exCrossX θ, fun _ => 0, 1⟩ : Cloud (Fin 2 → ℝ)) ⟨1, fun _ _ => 0, fun _ => 0, 1⟩ 1 (0 : Fin 1) =
          {(0 : Fin 1)} := by
        ext p
        rw [exCross_nbrs θ hθ]
        have : p = (0 : Fin 1) := Subsingleton.elim (α := Fin 1) _ _
        simp [h0, this]
      rw [hn, if_pos h0, Finset.sum_singleton, Finset.sum_range_one, Finset.sum_range_one]
      simp [Interp.weight, kpSigma]
    · have hn : nbrs (⟨1, exCrossX θ, fun _ => 0, 1⟩ : Cloud (Fin 2 → ℝ)) ⟨1, fun _ _ => 0, fun _ => 0, 1⟩ 1 (0 : Fin 1) = ∅ := by
        ext p
        rw [exCross_nbrs θ hθ]
        simp [h0]
      rw [hn, if_neg h0, Finset.sum_empty]
  have hnear : ∀ᶠ θ in nhds (0 : ℝ), -1 < θ := eventually_gt_nhds (by norm_num)
  have h1 : Filter.Tendsto (fun θ => out θ 0 0) (nhdsWithin 0 (Set.Iio 0)) (nhds 0) := by
    have h := hd.continuousAt.tendsto
    rw [hval 0 (by norm_num), if_neg (lt_irrefl _)] at h
    exact h.mono_left nhdsWithin_le_nhds
  have hg : Continuous fun θ => Real.exp (-(norm2 (exCrossX θ 0) / (1 / 3)) ^ 2) := by
    unfold norm2
    simp only [Fin.sum_univ_two, exCrossX]
    simp only [if_true, show ¬ ((1 : Fin 2) = 0) by decide, if_false]
    fun_prop
  have h2 : Filter.Tendsto (fun θ => out θ 0 0) (nhdsWithin 0 (Set.Iio 0))
      (nhds (Real.exp (-(norm2 (exCrossX 0 0) / (1 / 3)) ^ 2))) := by
    refine (hg.continuousAt.tendsto.mono_left nhdsWithin_le_nhds).congr' ?_
    filter_upwards [nhdsWithin_le_nhds hnear, self_mem_nhdsWithin] with θ ha hb
    rw [hval θ ha, if_pos (Set.mem_Iio.mp hb)]
  exact (Real.exp_pos _).ne (tendsto_nhds_unique h1 h2)

/-! ## the hypotheses can be met -/

/-- Three moving points. -/
noncomputable abbrev exGradX (θ : ℝ) (i : Fin 3) (_ : Fin 3) : ℝ := (i.val : ℝ) ^ 2 / 4 + θ * i.val

/-- A layer whose parameters move too. -/
noncomputable abbrev exGradMC (θ : ℝ) : MCLayer ℝ :=
  ⟨3, 4, 2, [⟨4, fun _ _ _ => 1, fun _ _ => θ⟩], fun _ _ _ => 1 + θ⟩

theorem exGrad_apart (p q : Fin 3) : ∑ d, (exGradX 0 p d - exGradX 0 q d) ^ 2 ≠ (1 : ℝ) ^ 2 := by
  fin_cases p <;> fin_cases q <;> norm_num [Fin.sum_univ_three, exGradX]

/-- The points, the features and the parameters move; `C109_mcconv_partial` applies to every
run, and there are runs. -/
example (G : Fin 3 → ℕ → ℝ) : ∃ (out : ℝ → Fin 3 → ℕ → ℝ) (D : ℝ),
    (∀ θ, (exGradMC θ).GpuCall id 1 (1 / 100) ⟨3, exGradX θ, fun _ => 0, 1⟩ ⟨3, exGradX 0, fun _ => 0, 1⟩ 1 (1 / 4)
      (fun i ch => θ * i.val + ch) (out θ)) ∧
    HasDerivAt (fun θ => ∑ c, ∑ o ∈ Finset.range 4, G c o * out θ c o) D 0 := by
  have hc : ∀ θ, ∃ out : Fin 3 → ℕ → ℝ, (exGradMC θ).GpuCall id 1 (1 / 100) ⟨3, exGradX θ, fun _ => 0, 1⟩
      ⟨3, exGradX 0, fun _ => 0, 1⟩ 1 (1 / 4) (fun i ch => θ * i.val + ch) out := fun θ =>
    C108_mcconv_runs (k := 1) id 1 (1 / 100) (exGradMC θ) ⟨3, exGradX θ, fun _ => 0, 1⟩
      ⟨3, exGradX 0, fun _ => 0, 1⟩ 1 (1 / 4) one_pos one_pos
      (by norm_num) (by norm_num) (by norm_num) (by norm_num) _
  choose out hout using hc
  obtain ⟨ids, mG, xG, fG, wG, hb⟩ := (C109_runs (k := 1) id 1 (1 / 100) ⟨3, exGradX 0, fun _ => 0, 1⟩
    ⟨3, exGradX 0, fun _ => 0, 1⟩ 1 (1 / 4) one_pos one_pos (by norm_num) (by norm_num) (by norm_num) (by norm_num)
    (fun i ch => (0 : ℝ) * i.val + ch) G).1 (exGradMC 0)
  refine ⟨out, _, hout, C109_mcconv_partial (k := 1) id 1 (1 / 100) 1 (1 / 4) one_pos (by norm_num) one_pos 3 3
    (by norm_num) (by norm_num) (by norm_num) (by norm_num) le_rfl _ _ 1 1 3 4 2 4 (by norm_num) (by norm_num)
    (by decide) (by decide) 0 exGradX (fun _ => exGradX 0) (fun θ i ch => θ * i.val + ch) exGradMC
    (fun _ => ⟨rfl, rfl, rfl, rfl⟩) (fun p q _ => Or.inr (exGrad_apart p q)) (fun p q _ => Or.inr (exGrad_apart p q))
    (fun p _ => p.val) (fun p _ => p.val)
    (fun p c b => deriv (fun θ => mlpEval id (b / 4) 3 (exGradMC θ).layers
        (rowOf (fun d => (exGradX θ p d - exGradX 0 c d) / 1)) (b % 4)) 0) (fun _ _ _ => 1)
    (fun p d => ?_) (fun c d => continuousAt_const) (fun p ch _ => ?_) (fun p c _ _ b _ => ?_)
    (fun _ _ _ _ _ _ => ?_) out hout G ids mG xG fG wG hb⟩
  · simpa using ((hasDerivAt_id (0 : ℝ)).mul_const (p.val : ℝ)).const_add ((p.val : ℝ) ^ 2 / 4)
  · simpa using ((hasDerivAt_id (0 : ℝ)).mul_const (p.val : ℝ)).add_const (ch : ℝ)
  · refine DifferentiableAt.hasDerivAt ?_
    simp only [mlpEval, id, rowOf, gatherD, Finset.sum_range_succ, Finset.sum_range_zero]
    norm_num
  · simpa using (hasDerivAt_id (0 : ℝ)).const_add (1 : ℝ)

/-- A rigid layer with 13 kernel points whose features and weights move. -/
noncomputable abbrev exGradKP (θ : ℝ) : KPLayer 3 :=
  ⟨8, 13, 13, fun b d => b - d.val, .linear, fun _ _ => 1 + θ, none⟩

example (G : Fin 3 → ℕ → ℝ) : ∃ (out : ℝ → ℕ → ℕ → ℝ) (D : ℝ),
    (∀ θ, (exGradKP θ).GpuCall 1 (1 / 100) ⟨3, exGradX 0, fun _ => 0, 1⟩ ⟨3, exGradX 0, fun _ => 0, 1⟩ 1 none
      (fun i ch => θ * i.val + ch) (.ok (3, out θ))) ∧
    HasDerivAt (fun θ => ∑ c : Fin 3, ∑ o ∈ Finset.range 4, G c o * out θ c.val o) D 0 := by
  have hc : ∀ θ, ∃ out : ℕ → ℕ → ℝ, (exGradKP θ).GpuCall 1 (1 / 100) ⟨3, exGradX 0, fun _ => 0, 1⟩
      ⟨3, exGradX 0, fun _ => 0, 1⟩ 1 none (fun i ch => θ * i.val + ch) (.ok (3, out)) := by
    intro θ
    obtain ⟨res, h1⟩ := C108_kpconv_runs (k := 1) 1 (1 / 100) (exGradKP θ) ⟨3, exGradX 0, fun _ => 0, 1⟩
      ⟨3, exGradX 0, fun _ => 0, 1⟩ 1 none one_pos one_pos (by norm_num) (by norm_num)
      (fun i ch => θ * i.val + ch)
    have hok : LayerOk (⟨3, exGradX 0, fun _ => 0, 1⟩ : Cloud (Fin 3 → ℝ)) ⟨3, exGradX 0, fun _ => 0, 1⟩ 1 (1 / 100) :=
      ⟨fun _ => Nat.zero_lt_one, one_pos, by norm_num⟩
    obtain ⟨tf, h2⟩ := C41_kpconv_returns (k := 1) (1 / 100) (exGradKP θ) _ _ 1 hok none (by norm_num)
      (by norm_num) rfl (by norm_num) (fun _ => Nat.zero_lt_one) (fun i ch => θ * i.val + ch)
    obtain ⟨out, h3, _, _⟩ := C108_kpconv_partial (k := 1) 1 .gpu (1 / 100) (exGradKP θ) _ _ 1 hok none
      (by norm_num) (by norm_num) rfl one_pos (by norm_num) (by norm_num) (Or.inl le_rfl) (show opFeaturesOk 8 = true by decide) _ res _ h1 h2
    subst h3
    exact ⟨out, h1⟩
  choose out hout using hc
  obtain ⟨ids, bG, fG, wG, hb⟩ := (C109_runs (k := 1) id 1 (1 / 100) ⟨3, exGradX 0, fun _ => 0, 1⟩
    ⟨3, exGradX 0, fun _ => 0, 1⟩ 1 (1 / 4) one_pos one_pos (by norm_num) (by norm_num) (by norm_num) (by norm_num)
    (fun i ch => (0 : ℝ) * i.val + ch) G).2.2 (exGradKP 0) 4 none
  refine ⟨out, _, hout, C109_kpconv_partial (k := 1) 1 (1 / 100) 1 none one_pos one_pos 3 3
    (by norm_num) (by norm_num) le_rfl _ _ 1 1 8 4 13 (by norm_num) (by norm_num)
    (by decide) 0 (fun _ => exGradX 0) (fun _ => exGradX 0) (fun θ i ch => θ * i.val + ch) exGradKP
    (fun _ => ⟨rfl, rfl, rfl, rfl⟩) (fun p q _ => Or.inr (exGrad_apart p q))
    (fun p _ => p.val) (fun _ _ _ => 0) (fun _ _ => 1)
    (fun p d => continuousAt_const) (fun c d => continuousAt_const) (fun p ch _ => ?_)
    (fun p c _ _ b _ => hasDerivAt_const (0 : ℝ) (Interp.linear.weight (norm2 fun d : Fin 3 =>
      (exGradX 0 p d - exGradX 0 c d) / 1 - ((b : ℝ) - (d.val : ℝ))) (kpSigma none 1)))
    (fun _ _ _ _ => ?_) out hout G ids bG fG wG hb⟩
  · simpa using ((hasDerivAt_id (0 : ℝ)).mul_const (p.val : ℝ)).add_const (ch : ℝ)
  · simpa using (hasDerivAt_id (0 : ℝ)).const_add (1 : ℝ)

end PC
