import Verif.Props.Layers3
import Verif.Props.Pooling
import Verif.Props.DivZero
import Verif.Props.GpuGrad
import Mathlib.Topology.Order.Lattice
import Mathlib.Topology.Algebra.Monoid
import Mathlib.Topology.Algebra.Field
import Mathlib.Topology.Algebra.Order.Field
import Mathlib.Analysis.SpecialFunctions.Exp
import Mathlib.Analysis.Real.Sqrt

/-!
# C134: small movements change the output only a little

Points, centres and features move continuously with a parameter `θ` from any
topological space; the layers are continuous wherever no pair of points is exactly one
radius apart.
-/

set_option linter.unusedVariables false

namespace PC

open Filter Topology

section
variable {Θ : Type*} [TopologicalSpace Θ] {k n m : ℕ}

/-! ## neighbourhoods -/

theorem eventually_normLt' {D : ℕ} (u : Θ → Fin D → ℝ) (θ₀ : Θ) (r : ℝ) (hu : ∀ d, ContinuousAt (fun θ => u θ d) θ₀)
    (hne : ∑ d, u θ₀ d ^ 2 ≠ r ^ 2) : ∀ᶠ θ in 𝓝 θ₀, (normLt (u θ) r ↔ normLt (u θ₀) r) := by
  have hc : ContinuousAt (fun θ => ∑ d, u θ d * u θ d) θ₀ :=
    tendsto_finsetSum _ fun d _ => (hu d).mul (hu d)
  have e : ∑ d, u θ₀ d * u θ₀ d ≠ r * r := by simpa [pow_two] using hne
  rcases lt_or_gt_of_ne e with h | h
  · filter_upwards [hc.eventually (gt_mem_nhds h)] with θ hθ
    simp only [normLt, h, hθ, and_true]
  · filter_upwards [hc.eventually (lt_mem_nhds h)] with θ hθ
    simp only [normLt, not_lt.mpr h.le, not_lt.mpr (le_of_lt hθ), and_false]

/-- Neighbourhoods do not change near a position with no pair at the radius. -/
theorem eventually_nbrs' (bi : Fin n → ℕ) (bo : Fin m → ℕ) (Bi Bo : ℕ) {D : ℕ} (x : Θ → Fin n → Fin D → ℝ)
    (y : Θ → Fin m → Fin D → ℝ) (θ₀ : Θ) (radius : ℝ) (hx : ∀ p d, ContinuousAt (fun θ => x θ p d) θ₀)
    (hy : ∀ c d, ContinuousAt (fun θ => y θ c d) θ₀)
    (hne : ∀ p c, bi p = bo c → ∑ d, (x θ₀ p d - y θ₀ c d) ^ 2 ≠ radius ^ 2) :
    ∀ᶠ θ in 𝓝 θ₀, ∀ c : Fin m, nbrs ⟨n, x θ, bi, Bi⟩ ⟨m, y θ, bo, Bo⟩ radius c =
      nbrs ⟨n, x θ₀, bi, Bi⟩ ⟨m, y θ₀, bo, Bo⟩ radius c := by
  have h4 : ∀ᶠ θ in 𝓝 θ₀, ∀ (c : Fin m) (p : Fin n), bi p = bo c →
      (normLt (fun d => x θ p d - y θ c d) radius ↔ normLt (fun d => x θ₀ p d - y θ₀ c d) radius) := by
    rw [eventually_all]
    intro c
    rw [eventually_all]
    intro p
    by_cases hb : bi p = bo c
    · exact (eventually_normLt' (fun θ d => x θ p d - y θ c d) θ₀ radius
        (fun d => (hx p d).sub (hy c d)) (hne p c hb)).mono fun θ h _ => h
    · exact Eventually.of_forall fun θ h => absurd h hb
  filter_upwards [h4] with θ hθ c
  ext p
  rw [mem_nbrs, mem_nbrs]
  exact and_congr_right fun hb => hθ c p hb

/-! ## parts of the layers -/

theorem sum_continuousAt {ι : Type*} (s : Finset ι) (g : Θ → ι → ℝ) (θ₀ : Θ)
    (h : ∀ i ∈ s, ContinuousAt (fun θ => g θ i) θ₀) : ContinuousAt (fun θ => ∑ i ∈ s, g θ i) θ₀ :=
  tendsto_finsetSum _ h

theorem rowOf_continuousAt {D : ℕ} (u : Θ → Fin D → ℝ) (θ₀ : Θ) (hu : ∀ d, ContinuousAt (fun θ => u θ d) θ₀) (i : ℕ) :
    ContinuousAt (fun θ => rowOf (u θ) i) θ₀ := by
  unfold rowOf gatherD
  by_cases h : i < D
  · simp only [dif_pos h]
    exact hu _
  · simp only [dif_neg h]
    exact continuousAt_const

theorem mlp_continuousAt (act : ℝ → ℝ) (hact : Continuous act) (ml : ℕ) (θ₀ : Θ) (ls : List (MlpLayer ℝ)) :
    ∀ (prev : ℕ) (u : Θ → ℕ → ℝ), (∀ i, ContinuousAt (fun θ => u θ i) θ₀) →
      ∀ i, ContinuousAt (fun θ => mlpEval act ml prev ls (u θ) i) θ₀ := by
  induction ls with
  | nil => intro prev u hu i; exact hu i
  | cons l ls ih =>
    intro prev u hu i
    refine ih l.size (fun θ o => act (∑ i ∈ Finset.range prev, u θ i * l.w ml i o + l.b ml o)) (fun o => ?_) i
    refine hact.continuousAt.comp (ContinuousAt.add ?_ continuousAt_const)
    exact tendsto_finsetSum _ fun i _ => (hu i).mul continuousAt_const

theorem density_continuousAt (ker : ℝ → ℝ) (hker : Continuous ker) (bi : Fin n → ℕ) (Bi : ℕ)
    (x : Θ → Fin n → Fin (k + 2) → ℝ) (θ₀ : Θ) (radius bw : ℝ) (hx : ∀ p d, ContinuousAt (fun θ => x θ p d) θ₀)
    (hne : ∀ p q, bi p = bi q → ∑ d, (x θ₀ p d - x θ₀ q d) ^ 2 ≠ radius ^ 2) (p : Fin n) :
    ContinuousAt (fun θ => density ker (⟨n, x θ, bi, Bi⟩ : Cloud (Fin (k + 2) → ℝ)) (fun _ => bw) (fun _ => radius) p) θ₀ := by
  have hev := eventually_nbrs' bi bi Bi Bi x x θ₀ radius hx hx hne
  have e : ∀ θ, density ker (⟨n, x θ, bi, Bi⟩ : Cloud (Fin (k + 2) → ℝ)) (fun _ => bw) (fun _ => radius) p =
      (∑ q ∈ nbrs (⟨n, x θ, bi, Bi⟩ : Cloud (Fin (k + 2) → ℝ)) ⟨n, x θ, bi, Bi⟩ radius p,
        ∏ d, ker ((x θ q d - x θ p d) / (bw * radius))) / ∏ _d : Fin (k + 2), bw := fun θ => rfl
  simp only [e]
  refine ContinuousAt.congr (f := fun θ => (∑ q ∈ nbrs (⟨n, x θ₀, bi, Bi⟩ : Cloud (Fin (k + 2) → ℝ))
    ⟨n, x θ₀, bi, Bi⟩ radius p, ∏ d, ker ((x θ q d - x θ p d) / (bw * radius))) / ∏ _d : Fin (k + 2), bw) ?_ ?_
  · refine ContinuousAt.div_const ?_ _
    refine tendsto_finsetSum _ fun q _ => tendsto_finsetProd _ fun d _ => ?_
    exact hker.continuousAt.comp (((hx q d).sub (hx p d)).div_const _)
  · filter_upwards [hev] with θ hθ
    rw [hθ p]

theorem maxOver_continuousAt {ι : Type*} (s : Finset ι) (g : Θ → ι → ℝ) (θ₀ : Θ)
    (hg : ∀ i ∈ s, ContinuousAt (fun θ => g θ i) θ₀) : ContinuousAt (fun θ => maxOver s (g θ)) θ₀ := by
  unfold maxOver
  by_cases h : s.Nonempty
  · simp only [dif_pos h]
    exact ContinuousAt.finset_sup'_apply h hg
  · simp only [dif_neg h]
    exact continuousAt_const

theorem interp_continuous (i : Interp) (sigma : ℝ) : Continuous fun v => i.weight v sigma := by
  cases i with
  | linear => unfold Interp.weight; fun_prop
  | gaussian => unfold Interp.weight; fun_prop

theorem norm2_continuousAt {D : ℕ} (u : Θ → Fin D → ℝ) (θ₀ : Θ) (hu : ∀ d, ContinuousAt (fun θ => u θ d) θ₀) :
    ContinuousAt (fun θ => norm2 (u θ)) θ₀ := by
  unfold norm2
  exact Real.continuous_sqrt.continuousAt.comp (tendsto_finsetSum _ fun d _ => (hu d).pow 2)

theorem densityNet_continuous (w1 b1 w2 : ℕ → ℝ) (b2 : ℝ) : Continuous (densityNet w1 b1 w2 b2) := by
  unfold densityNet
  refine (continuous_finsetSum _ fun i _ => ?_).add continuous_const
  exact (((continuous_id.mul continuous_const).add continuous_const).max continuous_const).mul continuous_const

/-- One summand of `PointConv`. -/
theorem pc_term_continuousAt {ι : Type*} (s : Finset ι) (P : Θ → ι → ℝ) (w1 b1 w2 : ℕ → ℝ) (b2 : ℝ) (θ₀ : Θ)
    (hP : ∀ i, ContinuousAt (fun θ => P θ i) θ₀) (hpos : ∀ i, 0 < P θ₀ i)
    (hnet : ∀ t : ℝ, 0 < t → t ≤ 1 → densityNet w1 b1 w2 b2 t ≠ 0) (p : ι) (hp : p ∈ s) (a : Θ → ℝ)
    (ha : ContinuousAt a θ₀) :
    ContinuousAt (fun θ => a θ / densityNet w1 b1 w2 b2 (P θ p / maxOver s (P θ))) θ₀ := by
  have hmax : P θ₀ p ≤ maxOver s (P θ₀) := by
    unfold maxOver
    rw [dif_pos ⟨p, hp⟩]
    exact Finset.le_sup' (P θ₀) hp
  have hm0 := (hpos p).trans_le hmax
  refine ContinuousAt.div ha ?_ (hnet _ (div_pos (hpos p) hm0) ((div_le_one hm0).2 hmax))
  exact (densityNet_continuous w1 b1 w2 b2).continuousAt.comp
    ((hP p).div (maxOver_continuousAt _ P θ₀ (fun q _ => hP q)) hm0.ne')

/-- The sum of `PointConv` over a fixed neighbourhood. -/
theorem pc_sum_continuousAt (act : ℝ → ℝ) (hact : Continuous act) (L : PCLayer ℝ) (s : Finset (Fin n))
    (x : Θ → Fin n → Fin (k + 2) → ℝ) (y : Θ → Fin (k + 2) → ℝ) (f : Θ → Fin n → ℕ → ℝ) (P : Θ → Fin n → ℝ) (θ₀ : Θ)
    (hx : ∀ p d, ContinuousAt (fun θ => x θ p d) θ₀) (hy : ∀ d, ContinuousAt (fun θ => y θ d) θ₀)
    (hf : ∀ p ch, ContinuousAt (fun θ => f θ p ch) θ₀) (hP : ∀ i, ContinuousAt (fun θ => P θ i) θ₀)
    (hpos : ∀ i, 0 < P θ₀ i) (hnet : ∀ t : ℝ, 0 < t → t ≤ 1 → densityNet L.pw1 L.pb1 L.pw2 L.pb2 t ≠ 0) (o : ℕ) :
    ContinuousAt (fun θ => ∑ p ∈ s, ∑ ch ∈ Finset.range L.cin, ∑ hh ∈ Finset.range L.hid,
      f θ p ch * (act (∑ i ∈ Finset.range (k + 2), rowOf (fun d => x θ p d - y θ d) i * L.axis i hh + L.bias hh) /
        densityNet L.pw1 L.pb1 L.pw2 L.pb2 (P θ p / maxOver s (P θ))) * L.weights (ch * L.hid + hh) o) θ₀ := by
  refine sum_continuousAt _ _ θ₀ fun p hp => sum_continuousAt _ _ θ₀ fun ch _ => sum_continuousAt _ _ θ₀ fun hh _ => ?_
  refine ContinuousAt.mul (ContinuousAt.mul (hf p ch) ?_) continuousAt_const
  refine pc_term_continuousAt _ P _ _ _ _ θ₀ hP hpos hnet p hp _ ?_
  refine hact.continuousAt.comp (ContinuousAt.add (sum_continuousAt _ _ θ₀ fun i _ => ?_) continuousAt_const)
  exact (rowOf_continuousAt _ θ₀ (fun d => (hx p d).sub (hy d)) i).mul continuousAt_const

/-! ## C134 -/

/-- **C134, MCConv, in part.** Where no pair is exactly one radius apart, the output of
the layer depends continuously on points, centres and features.  Missing: pairs at the
radius, see `C134_jump_false`. -/
theorem C134_mcconv_partial (ker act : ℝ → ℝ) (hker : Continuous ker) (hpos : ∀ t, 0 < ker t) (hact : Continuous act)
    (dev : Device) (eps : ℝ) (heps : 0 < eps) (L : MCLayer ℝ) (radius bw : ℝ) (hr : 0 < radius) (hbw : 0 < bw)
    (bi : Fin n → ℕ) (bo : Fin m → ℕ) (Bi Bo : ℕ) (hv : ∀ i, bi i < Bi) (x : Θ → Fin n → Fin (k + 2) → ℝ)
    (y : Θ → Fin m → Fin (k + 2) → ℝ) (f : Θ → Fin n → ℕ → ℝ) (θ₀ : Θ)
    (hx : ∀ p d, ContinuousAt (fun θ => x θ p d) θ₀) (hy : ∀ c d, ContinuousAt (fun θ => y θ c d) θ₀)
    (hf : ∀ p ch, ContinuousAt (fun θ => f θ p ch) θ₀)
    (hxy : ∀ p c, bi p = bo c → ∑ d, (x θ₀ p d - y θ₀ c d) ^ 2 ≠ radius ^ 2)
    (hxx : ∀ p q, bi p = bi q → ∑ d, (x θ₀ p d - x θ₀ q d) ^ 2 ≠ radius ^ 2)
    (out : Θ → Fin m → ℕ → ℝ)
    (hout : ∀ᶠ θ in 𝓝 θ₀, L.call ker act dev eps ⟨n, x θ, bi, Bi⟩ ⟨m, y θ, bo, Bo⟩ radius bw (f θ) = .ok (out θ))
    (c : Fin m) (o : ℕ) : ContinuousAt (fun θ => out θ c o) θ₀ := by
  have hev : ∀ᶠ θ in 𝓝 θ₀, (∑ p ∈ nbrs (⟨n, x θ₀, bi, Bi⟩ : Cloud (Fin (k + 2) → ℝ)) ⟨m, y θ₀, bo, Bo⟩ radius c,
      ∑ ch ∈ Finset.range L.cin, ∑ hh ∈ Finset.range L.hid,
        f θ p ch * (mlpEval act (o / (L.cout / L.mlps)) (k + 2) L.layers
            (rowOf (fun d => (x θ p d - y θ c d) / radius)) hh /
              density ker (⟨n, x θ, bi, Bi⟩ : Cloud (Fin (k + 2) → ℝ)) (fun _ => bw) (fun _ => radius) p) *
          L.final (o / (L.cout / L.mlps)) (ch * L.hid + hh) (o % (L.cout / L.mlps))) = out θ c o := by
    filter_upwards [hout, eventually_nbrs' bi bo Bi Bo x y θ₀ radius hx hy hxy] with θ h1 h2
    have hok : LayerOk (⟨n, x θ, bi, Bi⟩ : Cloud (Fin (k + 2) → ℝ)) ⟨m, y θ, bo, Bo⟩ radius eps := ⟨hv, hr, heps⟩
    rw [C41_mcconv_formula ker act dev eps L _ _ radius bw hok _ _ h1 c o]
    unfold mcSpec
    rw [h2 c]
  refine ContinuousAt.congr ?_ hev
  refine tendsto_finsetSum _ fun p _ => tendsto_finsetSum _ fun ch _ => tendsto_finsetSum _ fun hh _ => ?_
  refine ContinuousAt.mul (ContinuousAt.mul (hf p ch) (ContinuousAt.div ?_ ?_ ?_)) continuousAt_const
  · exact mlp_continuousAt act hact _ θ₀ L.layers _ _ (fun i => rowOf_continuousAt _ θ₀
      (fun d => ((hx p d).sub (hy c d)).div_const _) i) hh
  · exact density_continuousAt ker hker bi Bi x θ₀ radius bw hx hxx p
  · exact (density_pos ker hpos _ hbw hr p).ne'

/-- **C134, PointConv, in part**, if moreover the density network has no zero on
`(0, 1]` (see C114). -/
theorem C134_pointconv_partial (ker act : ℝ → ℝ) (hker : Continuous ker) (hpos : ∀ t, 0 < ker t) (hact : Continuous act)
    (dev : Device) (eps : ℝ) (heps : 0 < eps) (L : PCLayer ℝ) (radius bw : ℝ) (hr : 0 < radius) (hbw : 0 < bw)
    (bi : Fin n → ℕ) (bo : Fin m → ℕ) (Bi Bo : ℕ) (hv : ∀ i, bi i < Bi) (x : Θ → Fin n → Fin (k + 2) → ℝ)
    (y : Θ → Fin m → Fin (k + 2) → ℝ) (f : Θ → Fin n → ℕ → ℝ) (θ₀ : Θ)
    (hx : ∀ p d, ContinuousAt (fun θ => x θ p d) θ₀) (hy : ∀ c d, ContinuousAt (fun θ => y θ c d) θ₀)
    (hf : ∀ p ch, ContinuousAt (fun θ => f θ p ch) θ₀)
    (hxy : ∀ p c, bi p = bo c → ∑ d, (x θ₀ p d - y θ₀ c d) ^ 2 ≠ radius ^ 2)
    (hxx : ∀ p q, bi p = bi q → ∑ d, (x θ₀ p d - x θ₀ q d) ^ 2 ≠ radius ^ 2)
    (hnet : ∀ t : ℝ, 0 < t → t ≤ 1 → densityNet L.pw1 L.pb1 L.pw2 L.pb2 t ≠ 0)
    (out : Θ → Fin m → ℕ → ℝ)
    (hout : ∀ᶠ θ in 𝓝 θ₀, L.call ker act dev eps ⟨n, x θ, bi, Bi⟩ ⟨m, y θ, bo, Bo⟩ radius bw (f θ) = .ok (out θ))
    (c : Fin m) (o : ℕ) : ContinuousAt (fun θ => out θ c o) θ₀ := by
  refine ContinuousAt.congr (pc_sum_continuousAt act hact L
    (nbrs (⟨n, x θ₀, bi, Bi⟩ : Cloud (Fin (k + 2) → ℝ)) ⟨m, y θ₀, bo, Bo⟩ radius c) x (fun θ => y θ c) f
    (fun θ => density ker (⟨n, x θ, bi, Bi⟩ : Cloud (Fin (k + 2) → ℝ)) (fun _ => bw) (fun _ => radius)) θ₀ hx (hy c) hf
    (density_continuousAt ker hker bi Bi x θ₀ radius bw hx hxx)
    (fun q => density_pos (D := k + 1) ker hpos ⟨n, x θ₀, bi, Bi⟩ hbw hr q) hnet o) ?_
  filter_upwards [hout, eventually_nbrs' bi bo Bi Bo x y θ₀ radius hx hy hxy] with θ h1 h2
  have hok : LayerOk (⟨n, x θ, bi, Bi⟩ : Cloud (Fin (k + 2) → ℝ)) ⟨m, y θ, bo, Bo⟩ radius eps := ⟨hv, hr, heps⟩
  have h3 := C41_pointconv_formula ker act dev eps L _ _ radius bw hok _ _ h1 c o
  unfold pcSpec at h3
  rw [h2 c] at h3
  exact h3.symm

/-- **C134, KPConv, in part**, rigid or deformable. -/
theorem C134_kpconv_partial (dev : Device) (eps : ℝ) (heps : 0 < eps) (L : KPLayer (k + 2)) (radius : ℝ)
    (influence : Option ℝ) (hr : 0 < radius) (hcin : 0 < L.cin) (hnk : 0 < L.nk) (hkp : L.nkp = L.nk)
    (bi : Fin n → ℕ) (bo : Fin m → ℕ) (Bi Bo : ℕ) (hv : ∀ i, bi i < Bi) (x : Θ → Fin n → Fin (k + 2) → ℝ)
    (y : Θ → Fin m → Fin (k + 2) → ℝ) (f : Θ → Fin n → ℕ → ℝ) (θ₀ : Θ)
    (hx : ∀ p d, ContinuousAt (fun θ => x θ p d) θ₀) (hy : ∀ c d, ContinuousAt (fun θ => y θ c d) θ₀)
    (hf : ∀ p ch, ContinuousAt (fun θ => f θ p ch) θ₀)
    (hxy : ∀ p c, bi p = bo c → ∑ d, (x θ₀ p d - y θ₀ c d) ^ 2 ≠ radius ^ 2)
    (out : Θ → ℕ → ℕ → ℝ)
    (hout : ∀ᶠ θ in 𝓝 θ₀, ∃ rows, L.call dev eps ⟨n, x θ, bi, Bi⟩ ⟨m, y θ, bo, Bo⟩ radius influence (f θ) =
      .ok (rows, out θ))
    (c : Fin m) (o : ℕ) : ContinuousAt (fun θ => out θ c.val o) θ₀ := by
  have hev : ∀ᶠ θ in 𝓝 θ₀, (∑ p ∈ nbrs (⟨n, x θ₀, bi, Bi⟩ : Cloud (Fin (k + 2) → ℝ)) ⟨m, y θ₀, bo, Bo⟩ radius c,
      ∑ ch ∈ Finset.range L.cin, ∑ b ∈ Finset.range L.nk,
        f θ p ch * L.interp.weight (norm2 (fun d => (x θ p d - y θ c d) / radius - (L.kp b d +
            match L.offs with
            | none => 0
            | some wo => ∑ p ∈ nbrs (⟨n, x θ₀, bi, Bi⟩ : Cloud (Fin (k + 2) → ℝ)) ⟨m, y θ₀, bo, Bo⟩ radius c,
                ∑ ch ∈ Finset.range L.cin, ∑ b' ∈ Finset.range L.nk,
                  f θ p ch * L.interp.weight (norm2 (fun d => (x θ p d - y θ c d) / radius - L.kp b' d))
                    (kpSigma influence radius) * wo (ch * L.nk + b') (b * (k + 2) + d.val))))
            (kpSigma influence radius) * L.weights (ch * L.nk + b) o) = out θ c.val o := by
    filter_upwards [hout, eventually_nbrs' bi bo Bi Bo x y θ₀ radius hx hy hxy] with θ h1 h2
    obtain ⟨rows, h1⟩ := h1
    cases hl : layerNbh dev eps (⟨n, x θ, bi, Bi⟩ : Cloud (Fin (k + 2) → ℝ)) ⟨m, y θ, bo, Bo⟩ radius with
    | error e => unfold KPLayer.call at h1; rw [hl] at h1; simp at h1
    | ok h =>
      obtain ⟨out', e1, e2⟩ := C41_kpconv_formula dev eps L (⟨n, x θ, bi, Bi⟩ : Cloud (Fin (k + 2) → ℝ))
        ⟨m, y θ, bo, Bo⟩ radius ⟨hv, hr, heps⟩ influence hcin hnk hkp (f θ) h hl
      rw [e1] at h1
      cases h1
      rw [e2 c o]
      unfold kpSpec kpOffset
      rw [h2 c]
      rfl
  refine ContinuousAt.congr ?_ hev
  refine tendsto_finsetSum _ fun p hp => tendsto_finsetSum _ fun ch _ => tendsto_finsetSum _ fun b _ => ?_
  refine ContinuousAt.mul (ContinuousAt.mul (hf p ch) ?_) continuousAt_const
  refine (interp_continuous L.interp _).continuousAt.comp (norm2_continuousAt _ θ₀ fun d => ?_)
  refine ContinuousAt.sub (((hx p d).sub (hy c d)).div_const _) (ContinuousAt.add continuousAt_const ?_)
  cases L.offs with
  | none => exact continuousAt_const
  | some wo =>
    refine tendsto_finsetSum _ fun p hp => tendsto_finsetSum _ fun ch _ => tendsto_finsetSum _ fun b _ => ?_
    refine ContinuousAt.mul (ContinuousAt.mul (hf p ch) ?_) continuousAt_const
    refine (interp_continuous L.interp _).continuousAt.comp (norm2_continuousAt _ θ₀ fun d => ?_)
    exact (((hx p d).sub (hy c d)).div_const _).sub continuousAt_const

theorem isMaxOf_maxOver {ι : Type*} {s : Finset ι} {g : ι → ℝ} {v : Option ℝ} (h : IsMaxOf s g v) :
    v.getD 0 = maxOver s g ∧ v.isSome = decide s.Nonempty := by
  unfold maxOver
  cases v with
  | none =>
    have : s = ∅ := h
    subst this
    simp
  | some t =>
    obtain ⟨⟨p, hp, e⟩, h2⟩ := h
    have hne : s.Nonempty := ⟨p, hp⟩
    rw [dif_pos hne]
    refine ⟨?_, by simp [hne]⟩
    apply le_antisymm
    · change t ≤ _
      rw [← e]; exact Finset.le_sup' g hp
    · exact Finset.sup'_le hne g h2

/-- **C134, pooling, in part**: maximum and average over the neighbours, any radius
argument; the empty neighbourhoods stay the same. -/
theorem C134_pool_partial (op : PoolOp) (dev : Device) (eps : ℝ) (heps : 0 < eps) (radius : RadiusArg ℝ)
    (radii : Fin (k + 2) → ℝ) (hr : poolRadius (k + 2) radius = .ok radii) (hr0 : 0 < radii 0)
    (hrm : ∀ d, radii 0 ≤ radii d)
    (bi : Fin n → ℕ) (bo : Fin m → ℕ) (Bi Bo : ℕ) (hv : ∀ i, bi i < Bi) (x : Θ → Fin n → Fin (k + 2) → ℝ)
    (y : Θ → Fin m → Fin (k + 2) → ℝ) (f : Θ → Fin n → ℕ → ℝ) (θ₀ : Θ)
    (hx : ∀ p d, ContinuousAt (fun θ => x θ p d) θ₀) (hy : ∀ c d, ContinuousAt (fun θ => y θ c d) θ₀)
    (hf : ∀ p ch, ContinuousAt (fun θ => f θ p ch) θ₀)
    (hxy : ∀ p c, bi p = bo c → ∑ d, (x θ₀ p d - y θ₀ c d) ^ 2 ≠ radii 0 ^ 2)
    (out : Θ → Fin m → ℕ → Option ℝ)
    (hout : ∀ᶠ θ in 𝓝 θ₀, localPool op dev eps ⟨n, x θ, bi, Bi⟩ ⟨m, y θ, bo, Bo⟩ radius (f θ) = .ok (out θ))
    (c : Fin m) (ch : ℕ) :
    ContinuousAt (fun θ => (out θ c ch).getD 0) θ₀ ∧ ∀ᶠ θ in 𝓝 θ₀, (out θ c ch).isSome = (out θ₀ c ch).isSome := by
  have hev := eventually_nbrs' bi bo Bi Bo x y θ₀ (radii 0) hx hy hxy
  cases op with
  | max =>
    have hval : ∀ᶠ θ in 𝓝 θ₀, (out θ c ch).getD 0 =
        maxOver (nbrs (⟨n, x θ₀, bi, Bi⟩ : Cloud (Fin (k + 2) → ℝ)) ⟨m, y θ₀, bo, Bo⟩ (radii 0) c) (fun p => f θ p ch) ∧
        (out θ c ch).isSome =
          decide (nbrs (⟨n, x θ₀, bi, Bi⟩ : Cloud (Fin (k + 2) → ℝ)) ⟨m, y θ₀, bo, Bo⟩ (radii 0) c).Nonempty := by
      filter_upwards [hout, hev] with θ h1 h2
      have hok : PoolOk (⟨n, x θ, bi, Bi⟩ : Cloud (Fin (k + 2) → ℝ)) radii eps := ⟨hv, hr0, hrm, heps⟩
      have := C43_local_max dev eps _ _ radius radii hr hok _ _ h1 c ch
      rw [h2 c] at this
      exact isMaxOf_maxOver this
    refine ⟨ContinuousAt.congr ?_ (hval.mono fun θ h => h.1.symm), ?_⟩
    · exact maxOver_continuousAt _ (fun θ p => f θ p ch) θ₀ (fun p _ => hf p ch)
    · filter_upwards [hval] with θ h
      rw [h.2, hval.self_of_nhds.2]
  | mean =>
    have hval : ∀ᶠ θ in 𝓝 θ₀, out θ c ch =
        some (meanOf (nbrs (⟨n, x θ₀, bi, Bi⟩ : Cloud (Fin (k + 2) → ℝ)) ⟨m, y θ₀, bo, Bo⟩ (radii 0) c)
          (fun p => f θ p ch)) := by
      filter_upwards [hout, hev] with θ h1 h2
      have hok : PoolOk (⟨n, x θ, bi, Bi⟩ : Cloud (Fin (k + 2) → ℝ)) radii eps := ⟨hv, hr0, hrm, heps⟩
      have := C44_local_mean dev eps _ _ radius radii hr hok _ _ h1 c ch
      rw [h2 c] at this
      exact this
    refine ⟨ContinuousAt.congr (f := fun θ => meanOf (nbrs (⟨n, x θ₀, bi, Bi⟩ : Cloud (Fin (k + 2) → ℝ))
      ⟨m, y θ₀, bo, Bo⟩ (radii 0) c) (fun p => f θ p ch)) ?_ (hval.mono fun θ h => (by
        change _ = (out θ c ch).getD 0
        rw [h]; rfl)), ?_⟩
    · unfold meanOf
      split_ifs
      · exact continuousAt_const
      · exact ContinuousAt.div_const (tendsto_finsetSum _ fun p _ => hf p ch) _
    · filter_upwards [hval] with θ h
      rw [h, hval.self_of_nhds]
      rfl

/-- **C134, features of pooling.** If no feature of a channel changes by more than `δ`,
no result of that channel does, for all clouds; no condition on the distances. -/
theorem C134_pool_features (op : PoolOp) (dev dev' : Device) (eps : ℝ) (cin cout : Cloud (Fin (k + 2) → ℝ))
    (radius : RadiusArg ℝ) (radii : Fin (k + 2) → ℝ) (hr : poolRadius (k + 2) radius = .ok radii)
    (hok : PoolOk cin radii eps) (f f' : Fin cin.n → ℕ → ℝ) (out out' : Fin cout.n → ℕ → Option ℝ)
    (h : localPool op dev eps cin cout radius f = .ok out) (h' : localPool op dev' eps cin cout radius f' = .ok out')
    (ch : ℕ) (δ : ℝ) (hδ : 0 ≤ δ) (hf : ∀ p, |f p ch - f' p ch| ≤ δ) (c : Fin cout.n) :
    (out c ch).isSome = (out' c ch).isSome ∧ |(out c ch).getD 0 - (out' c ch).getD 0| ≤ δ := by
  cases op with
  | max =>
    obtain ⟨e1, e2⟩ := isMaxOf_maxOver (C43_local_max dev eps _ _ radius radii hr hok _ _ h c ch)
    obtain ⟨e1', e2'⟩ := isMaxOf_maxOver (C43_local_max dev' eps _ _ radius radii hr hok _ _ h' c ch)
    refine ⟨by rw [e2, e2'], ?_⟩
    rw [e1, e1']
    unfold maxOver
    by_cases hs : (nbrs cin cout (radii 0) c).Nonempty
    · rw [dif_pos hs, dif_pos hs, abs_le]
      constructor
      · rw [neg_le_sub_iff_le_add]
        refine Finset.sup'_le hs _ fun p hp => ?_
        have := (abs_le.1 (hf p)).1
        have h2 := Finset.le_sup' (fun p => f p ch) hp
        linarith
      · rw [sub_le_iff_le_add]
        refine Finset.sup'_le hs _ fun p hp => ?_
        have := (abs_le.1 (hf p)).2
        have h2 := Finset.le_sup' (fun p => f' p ch) hp
        linarith
    · rw [dif_neg hs, dif_neg hs]
      simpa using hδ
  | mean =>
    rw [C44_local_mean dev eps _ _ radius radii hr hok _ _ h c ch, C44_local_mean dev' eps _ _ radius radii hr hok _ _ h' c ch]
    refine ⟨rfl, ?_⟩
    simp only [Option.getD_some]
    unfold meanOf
    split_ifs with h0
    · simpa using hδ
    · have hc : (0 : ℝ) < ((nbrs cin cout (radii 0) c).card : ℝ) := by exact_mod_cast Nat.pos_of_ne_zero h0
      rw [← sub_div, ← Finset.sum_sub_distrib, abs_div, abs_of_pos hc, div_le_iff₀ hc]
      refine (Finset.abs_sum_le_sum_abs _ _).trans ?_
      refine (Finset.sum_le_sum fun p _ => hf p).trans ?_
      rw [Finset.sum_const, nsmul_eq_mul, mul_comm]

end

/-- **C134 fails for a pair exactly one radius apart**: the output of a layer jumps when
a point crosses the radius. -/
theorem C134_jump_false : ¬ ∀ (L : KPLayer 2) (x : ℝ → Fin 1 → Fin 2 → ℝ) (f : Fin 1 → ℕ → ℝ) (out : ℝ → ℕ → ℕ → ℝ),
    (∀ p d, Continuous (fun θ => x θ p d)) →
    (∀ θ, ∃ rows, L.call (k := 0) .gpu (1 / 100) ⟨1, x θ, fun _ => 0, 1⟩ ⟨1, fun _ _ => 0, fun _ => 0, 1⟩ 1 none f =
      .ok (rows, out θ)) →
    ContinuousAt (fun θ => out θ 0 0) 0 := by
  intro hall
  have hok : ∀ θ, LayerOk (⟨1, exCrossX θ, fun _ => 0, 1⟩ : Cloud (Fin 2 → ℝ)) ⟨1, fun _ _ => 0, fun _ => 0, 1⟩ 1 (1 / 100) :=
    fun θ => ⟨fun _ => Nat.zero_lt_one, one_pos, by norm_num⟩
  have hc : ∀ θ, ∃ out : ℕ → ℕ → ℝ, (∃ rows, exCrossKP.call (k := 0) .gpu (1 / 100) ⟨1, exCrossX θ, fun _ => 0, 1⟩
      ⟨1, fun _ _ => 0, fun _ => 0, 1⟩ 1 none (fun _ _ => 1) = .ok (rows, out)) ∧ ∀ (c : Fin 1) (o : ℕ), out c.val o =
        kpSpec exCrossKP (kpSigma none 1) (⟨1, exCrossX θ, fun _ => 0, 1⟩ : Cloud (Fin 2 → ℝ))
          ⟨1, fun _ _ => 0, fun _ => 0, 1⟩ 1 (fun _ _ => 1) c o := by
    intro θ
    obtain ⟨h, hh⟩ := layerNbh_gpu (k := 0) (1 / 100) (⟨1, exCrossX θ, fun _ => 0, 1⟩ : Cloud (Fin 2 → ℝ))
      ⟨1, fun _ _ => 0, fun _ => 0, 1⟩ 1 (hok θ) (by norm_num) (fun _ => Nat.zero_lt_one)
    obtain ⟨out, e1, e2⟩ := C41_kpconv_formula (k := 0) .gpu (1 / 100) exCrossKP _ _ 1 (hok θ) none (by norm_num)
      (by norm_num) rfl (fun _ _ => 1) h hh
    exact ⟨out, ⟨_, e1⟩, e2⟩
  choose out hout hspec using hc
  have hd := hall exCrossKP exCrossX (fun _ _ => 1) out (fun p d => by
    fin_cases d <;> simp [exCrossX] <;> fun_prop) hout
  have hval : ∀ θ, -1 < θ → out θ 0 0 = if θ < 0 then Real.exp (-(norm2 (exCrossX θ 0) / (1 / 3)) ^ 2) else 0 := by
    intro θ hθ
    refine (hspec θ 0 0).trans ?_
    unfold kpSpec
    by_cases h0 : θ < 0
    · have hn : nbrs (⟨1, exCrossX θ, fun _ => 0, 1⟩ : Cloud (Fin 2 → ℝ)) ⟨1, fun _ _ => 0, fun _ => 0, 1⟩ 1 (0 : Fin 1) =
          {(0 : Fin 1)} := by
        ext p
        rw [exCross_nbrs θ hθ]
        have : p = (0 : Fin 1) := Subsingleton.elim (α := Fin 1) _ _
        simp [h0, this]
      rw [hn, if_pos h0, Finset.sum_singleton, Finset.sum_range_one, Finset.sum_range_one]
      simp [Interp.weight, kpSigma]
    · have hn : nbrs (⟨1, exCrossX θ, fun _ => 0, 1⟩ : Cloud (Fin 2 → ℝ)) ⟨1, fun _ _ => 0, fun _ => 0, 1⟩ 1 (0 : Fin 1) = ∅ := by
        ext p
        rw [exCross_nbrs θ hθ]
        simp [h0]
      rw [hn, if_neg h0, Finset.sum_empty]
  have hnear : ∀ᶠ θ in nhds (0 : ℝ), -1 < θ := eventually_gt_nhds (by norm_num)
  have h1 : Filter.Tendsto (fun θ => out θ 0 0) (nhdsWithin 0 (Set.Iio 0)) (nhds 0) := by
    have h := hd.tendsto
    rw [hval 0 (by norm_num), if_neg (lt_irrefl _)] at h
    exact h.mono_left nhdsWithin_le_nhds
  have hg : Continuous fun θ => Real.exp (-(norm2 (exCrossX θ 0) / (1 / 3)) ^ 2) := by
    unfold norm2
    simp only [Fin.sum_univ_two, exCrossX]
    simp only [if_true, show ¬ ((1 : Fin 2) = 0) by decide, if_false]
    fun_prop
  have h2 : Filter.Tendsto (fun θ => out θ 0 0) (nhdsWithin 0 (Set.Iio 0))
      (nhds (Real.exp (-(norm2 (exCrossX 0 0) / (1 / 3)) ^ 2))) := by
    refine (hg.continuousAt.tendsto.mono_left nhdsWithin_le_nhds).congr' ?_
    filter_upwards [nhdsWithin_le_nhds hnear, self_mem_nhdsWithin] with θ ha hb
    rw [hval θ ha, if_pos (Set.mem_Iio.mp hb)]
  exact (Real.exp_pos _).ne (tendsto_nhds_unique h1 h2)

/-- The three moving points of `exGradX`, seen as centres and as neighbours: the
hypotheses on the distances are met and the layer returns for every position. -/
example : (∀ p q : Fin 3, ∑ d, (exGradX 0 p d - exGradX 0 q d) ^ 2 ≠ (1 : ℝ) ^ 2) ∧
    ∃ out : ℝ → Fin 3 → ℕ → ℝ,
      (∀ θ, (exGradMC 0).call (k := 1) gauss id .gpu (1 / 100) ⟨3, exGradX θ, fun _ => 0, 1⟩ ⟨3, exGradX θ, fun _ => 0, 1⟩ 1
        (1 / 4) (fun i ch => θ * i.val + ch) = .ok (out θ)) ∧
      ContinuousAt (fun θ => out θ 1 2) 0 := by
  have hc : ∀ θ, ∃ out : Fin 3 → ℕ → ℝ, (exGradMC 0).call (k := 1) gauss id .gpu (1 / 100) ⟨3, exGradX θ, fun _ => 0, 1⟩
      ⟨3, exGradX θ, fun _ => 0, 1⟩ 1 (1 / 4) (fun i ch => θ * i.val + ch) = .ok out := fun θ =>
    C41_mcconv_returns (k := 1) gauss id (1 / 100) (exGradMC 0) ⟨3, exGradX θ, fun _ => 0, 1⟩
      ⟨3, exGradX θ, fun _ => 0, 1⟩ 1 (1 / 4) ⟨fun _ => Nat.zero_lt_one, one_pos, by norm_num⟩ (by norm_num) (by norm_num)
      (fun _ => Nat.zero_lt_one) _
  choose out hout using hc
  refine ⟨exGrad_apart, out, hout, ?_⟩
  have hgc : Continuous gauss := by unfold gauss; fun_prop
  exact C134_mcconv_partial (k := 1) gauss id hgc gauss_pos continuous_id .gpu (1 / 100) (by norm_num) (exGradMC 0) 1 (1 / 4)
    one_pos (by norm_num) (fun _ => 0) (fun _ => 0) 1 1 (fun _ => Nat.zero_lt_one) exGradX exGradX
    (fun θ i ch => θ * i.val + ch) 0 (fun p d => by unfold exGradX; fun_prop) (fun p d => by unfold exGradX; fun_prop)
    (fun p ch => by fun_prop) (fun p q _ => exGrad_apart p q) (fun p q _ => exGrad_apart p q) out
    (Eventually.of_forall hout) 1 2

end PC
