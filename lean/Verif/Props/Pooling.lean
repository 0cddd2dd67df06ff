import Verif.Props.Layers4

/-!
# Properties C43–C46: pooling and 1x1 convolutions, C77 (padded global pooling)
-/

set_option linter.unusedVariables false
set_option linter.unusedSectionVars false

namespace PC

section
variable {K : Type*} [Field K] [LinearOrder K] [IsStrictOrderedRing K] [FloorRing K] {k : ℕ}

/-- Specification: `v` is the largest of the values `g p`, `p ∈ s`; there is no
such value exactly for the empty set. -/
def IsMaxOf {ι : Type*} (s : Finset ι) (g : ι → K) (v : Option K) : Prop :=
  match v with
  | none => s = ∅
  | some x => (∃ p ∈ s, g p = x) ∧ ∀ p ∈ s, g p ≤ x

/-- Specification: the mean, 0 for the empty set. -/
def meanOf {ι : Type*} (s : Finset ι) (g : ι → K) : K := if s.card = 0 then 0 else (∑ p ∈ s, g p) / s.card

theorem IsMaxOf.unique {ι : Type*} {s : Finset ι} {g : ι → K} {v w : Option K}
    (hv : IsMaxOf s g v) (hw : IsMaxOf s g w) : v = w := by
  cases v with
  | none =>
    cases w with
    | none => rfl
    | some y =>
      obtain ⟨p, hp, _⟩ := hw.1
      rw [show s = ∅ from hv] at hp; simp at hp
  | some x =>
    cases w with
    | none =>
      obtain ⟨p, hp, _⟩ := hv.1
      rw [show s = ∅ from hw] at hp; simp at hp
    | some y =>
      obtain ⟨p, hp, rfl⟩ := hv.1
      obtain ⟨q, hq, rfl⟩ := hw.1
      rw [le_antisymm (hw.2 p hp) (hv.2 q hq)]

/-- The maximum commutes with monotone maps. -/
theorem IsMaxOf.map {ι : Type*} {s : Finset ι} {g : ι → K} {v : Option K} (hv : IsMaxOf s g v)
    (φ : K → K) (hφ : Monotone φ) : IsMaxOf s (fun p => φ (g p)) (v.map φ) := by
  cases v with
  | none => exact hv
  | some x =>
    obtain ⟨⟨p, hp, rfl⟩, h2⟩ := hv
    exact ⟨⟨p, hp, rfl⟩, fun q hq => hφ (h2 q hq)⟩

theorem IsMaxOf.equiv {ι ι' : Type*} {s : Finset ι} {s' : Finset ι'} {g : ι → K} {g' : ι' → K} {v : Option K}
    (hv : IsMaxOf s g v) (e : ι ≃ ι') (hs : ∀ p, e p ∈ s' ↔ p ∈ s) (hg : ∀ p, g' (e p) = g p) :
    IsMaxOf s' g' v := by
  cases v with
  | none =>
    show s' = ∅
    rw [Finset.eq_empty_iff_forall_notMem]
    intro q hq
    have : e.symm q ∈ s := (hs _).mp (by simpa using hq)
    rw [show s = ∅ from hv] at this
    simp at this
  | some x =>
    obtain ⟨⟨p, hp, rfl⟩, h2⟩ := hv
    refine ⟨⟨e p, (hs p).mpr hp, hg p⟩, ?_⟩
    intro q hq
    have h3 : e.symm q ∈ s := (hs _).mp (by simpa using hq)
    have h4 := h2 _ h3
    rw [← hg, Equiv.apply_symm_apply] at h4
    exact h4

/-- What a pooling operation returns, as a specification. -/
def PoolSpec {ι : Type*} (op : PoolOp) (s : Finset ι) (g : ι → K) (v : Option K) : Prop :=
  match op with
  | .max => IsMaxOf s g v
  | .mean => v = some (meanOf s g)

theorem segMean_rows {n : ℕ} (x : Fin n → K) (ids : Fin n → ℕ) (s : ℕ) :
    segMean x ids s = meanOf (Finset.univ.filter (fun i => ids i = s)) x := by
  have hrows : segRows ids s = Finset.univ.filter (fun i => ids i = s) := by
    ext i; simp
  unfold segMean meanOf
  rw [hrows]
  split
  · rename_i h; rw [Finset.card_eq_zero.mp h]; simp
  · rename_i h
    have : 1 ≤ (Finset.univ.filter (fun i => ids i = s)).card := by
      exact Nat.one_le_iff_ne_zero.mpr h
    rw [max_eq_left this]

/-- **C43, C44: what global pooling returns.** Row `b` is the maximum / mean over
exactly the points of batch element `b`. -/
theorem globalPool_spec (op : PoolOp) {α : Type*} (c : Cloud α) (f : Fin c.n → ℕ → K) (b : Fin c.B) (ch : ℕ) :
    PoolSpec op (Finset.univ.filter (fun i => c.batch i = b.val)) (fun i => f i ch) (globalPool op c f b ch) := by
  cases op with
  | max =>
    show IsMaxOf _ _ (segMax (fun i => f i ch) c.batch b.val)
    cases hv : segMax (fun i => f i ch) c.batch b.val with
    | none =>
      rw [segMax_eq_none] at hv
      show _ = ∅
      rw [Finset.eq_empty_iff_forall_notMem]
      intro i hi
      exact hv i (by simpa using hi)
    | some x =>
      rw [segMax_eq_some] at hv
      obtain ⟨⟨i, hi, hx⟩, h2⟩ := hv
      exact ⟨⟨i, by simpa using hi, hx⟩, fun j hj => h2 j (by simpa using hj)⟩
  | mean =>
    show some (segMean (fun i => f i ch) c.batch b.val) = _
    rw [segMean_rows]

/-- Assumptions for local pooling: batch ids below the batch size, positive
radius, the first radius being the smallest, `eps > 0`. -/
structure PoolOk {D : ℕ} (cin : Cloud (Fin (D + 1) → K)) (radii : Fin (D + 1) → K) (eps : K) : Prop where
  valid : cin.Valid
  radius_pos : 0 < radii 0
  radius_min : ∀ d, radii 0 ≤ radii d
  eps_pos : 0 < eps

theorem pairs_max {n m : ℕ} (pairs : List (Fin n × Fin m)) (g : Fin n → K) (c : Fin m) :
    IsMaxOf (Finset.univ.filter (fun p => (p, c) ∈ pairs)) g
      (segMax (fun j : Fin pairs.length => g (pairs.get j).1) (fun j => (pairs.get j).2.val) c.val) := by
  cases hv : segMax (fun j : Fin pairs.length => g (pairs.get j).1) (fun j => (pairs.get j).2.val) c.val with
  | none =>
    rw [segMax_eq_none] at hv
    show _ = ∅
    rw [Finset.eq_empty_iff_forall_notMem]
    intro p hp
    simp only [Finset.mem_filter, Finset.mem_univ, true_and] at hp
    obtain ⟨j, hj⟩ := List.mem_iff_get.mp hp
    apply hv j
    rw [hj]
  | some x =>
    rw [segMax_eq_some] at hv
    obtain ⟨⟨j, hj, hx⟩, h2⟩ := hv
    refine ⟨⟨(pairs.get j).1, ?_, hx⟩, ?_⟩
    · simp only [Finset.mem_filter, Finset.mem_univ, true_and]
      have : pairs.get j = ((pairs.get j).1, c) := Prod.ext rfl (Fin.val_injective hj)
      rw [← this]
      exact List.get_mem _ _
    · intro p hp
      simp only [Finset.mem_filter, Finset.mem_univ, true_and] at hp
      obtain ⟨j', hj'⟩ := List.mem_iff_get.mp hp
      have := h2 j' (by rw [hj'])
      rw [hj'] at this
      exact this

theorem pairs_card {n m : ℕ} (pairs : List (Fin n × Fin m)) (hnd : pairs.Nodup) (c : Fin m) :
    (segRows (fun j : Fin pairs.length => (pairs.get j).2.val) c.val).card =
      (Finset.univ.filter (fun p => (p, c) ∈ pairs)).card := by
  have h := segSum_pairs (K := ℚ) pairs hnd (fun _ _ => 1) c
  unfold segSum at h
  simpa using h

theorem pairs_mean {n m : ℕ} (pairs : List (Fin n × Fin m)) (hnd : pairs.Nodup) (g : Fin n → K) (c : Fin m) :
    segMean (fun j : Fin pairs.length => g (pairs.get j).1) (fun j => (pairs.get j).2.val) c.val =
      meanOf (Finset.univ.filter (fun p => (p, c) ∈ pairs)) g := by
  have hsum := segSum_pairs pairs hnd (fun p _ => g p) c
  unfold segSum at hsum
  unfold segMean meanOf
  rw [hsum, pairs_card pairs hnd c]
  split
  · rename_i h; rw [Finset.card_eq_zero.mp h]; simp
  · rename_i h
    have : 1 ≤ (Finset.univ.filter (fun p => (p, c) ∈ pairs)).card := by
      exact Nat.one_le_iff_ne_zero.mpr h
    rw [max_eq_left this]

/-- **C43, C44: what local pooling returns**: maximum / mean over exactly the
input points within the radius in the same batch element. -/
theorem localPool_spec (op : PoolOp) (dev : Device) (eps : K) (cin cout : Cloud (Fin (k + 2) → K))
    (radius : RadiusArg K) (radii : Fin (k + 2) → K) (hr : poolRadius (k + 2) radius = .ok radii)
    (hok : PoolOk cin radii eps) (f : Fin cin.n → ℕ → K) (out : Fin cout.n → ℕ → Option K)
    (h : localPool op dev eps cin cout radius f = .ok out) (c : Fin cout.n) (ch : ℕ) :
    PoolSpec op (nbrs cin cout (radii 0) c) (fun p => f p ch) (out c ch) := by
  unfold localPool at h
  rw [hr] at h
  dsimp only at h
  cases hn : Nbh.new dev (⟨cin, radii, eps⟩ : Grid (k + 2) K) radii (some cout) with
  | error e => rw [hn] at h; simp at h
  | ok nh =>
    rw [hn] at h
    simp only [Except.ok.injEq] at h
    subst h
    obtain ⟨e1, e2, e3, e4, hf⟩ := new_pairs hn
    obtain ⟨h1, h2, h3⟩ := C20_original_ids dev _ _ _ nh hn
    obtain ⟨g', r', s', q', nb'⟩ := nh
    simp only [Option.getD_some] at e1 e2 e3
    subst e1 e2 e3
    have h3 := h3 ⟨hok.valid, hok.radius_pos, hok.radius_min, rfl, hok.eps_pos⟩
    have hfin : Finset.univ.filter (fun p : Fin cin.n => (p, c) ∈
        (⟨⟨cin, r', eps⟩, r', s', q', nb'⟩ : Nbh k K).originalNeighIds) = nbrs cin s' (r' 0) c := by
      ext p
      simp only [Finset.mem_filter, Finset.mem_univ, true_and]
      rw [mem_nbrs]
      exact ⟨h1 p c, h3 p c⟩
    rw [← hfin]
    cases op with
    | max =>
      show IsMaxOf _ _ (segMax _ _ c.val)
      simp only [gatherD_fin]
      exact pairs_max _ (fun p => f p ch) c
    | mean =>
      show some (segMean _ _ c.val) = _
      simp only [gatherD_fin]
      rw [pairs_mean _ h2 (fun p => f p ch) c]

/-! ## C43 -/

/-- **C43, global max pooling.** -/
theorem C43_global_max {α : Type*} (c : Cloud α) (f : Fin c.n → ℕ → K) (b : Fin c.B) (ch : ℕ) :
    IsMaxOf (Finset.univ.filter (fun i => c.batch i = b.val)) (fun i => f i ch) (globalPool .max c f b ch) :=
  globalPool_spec .max c f b ch

/-- **C43, local max pooling**: an upper bound of the features of the points
within the radius, attained by one of them. -/
theorem C43_local_max (dev : Device) (eps : K) (cin cout : Cloud (Fin (k + 2) → K))
    (radius : RadiusArg K) (radii : Fin (k + 2) → K) (hr : poolRadius (k + 2) radius = .ok radii)
    (hok : PoolOk cin radii eps) (f : Fin cin.n → ℕ → K) (out : Fin cout.n → ℕ → Option K)
    (h : localPool .max dev eps cin cout radius f = .ok out) (c : Fin cout.n) (ch : ℕ) :
    IsMaxOf (nbrs cin cout (radii 0) c) (fun p => f p ch) (out c ch) :=
  localPool_spec .max dev eps cin cout radius radii hr hok f out h c ch

/-- **C43, monotone maps.** Max pooling commutes with monotone maps of the
features. -/
theorem C43_monotone (dev dev' : Device) (eps : K) (cin cout : Cloud (Fin (k + 2) → K))
    (radius : RadiusArg K) (radii : Fin (k + 2) → K) (hr : poolRadius (k + 2) radius = .ok radii)
    (hok : PoolOk cin radii eps) (φ : K → K) (hφ : Monotone φ)
    (f : Fin cin.n → ℕ → K) (out out' : Fin cout.n → ℕ → Option K)
    (h : localPool .max dev eps cin cout radius f = .ok out)
    (h' : localPool .max dev' eps cin cout radius (fun p ch => φ (f p ch)) = .ok out') (c : Fin cout.n) (ch : ℕ) :
    out' c ch = (out c ch).map φ :=
  (C43_local_max dev' eps cin cout radius radii hr hok _ out' h' c ch).unique
    ((C43_local_max dev eps cin cout radius radii hr hok f out h c ch).map φ hφ)

theorem C43_monotone_global {α : Type*} (c : Cloud α) (φ : K → K) (hφ : Monotone φ) (f : Fin c.n → ℕ → K)
    (b : Fin c.B) (ch : ℕ) :
    globalPool .max c (fun p ch => φ (f p ch)) b ch = (globalPool .max c f b ch).map φ :=
  (C43_global_max c _ b ch).unique ((C43_global_max c f b ch).map φ hφ)

/-- **C43, order.** Reordering the input points with their features and the
output points permutes the pooled rows. -/
theorem C43_order (dev dev' : Device) (eps : K) (cin cout : Cloud (Fin (k + 2) → K))
    (radius : RadiusArg K) (radii : Fin (k + 2) → K) (hr : poolRadius (k + 2) radius = .ok radii)
    (hok : PoolOk cin radii eps) (σ : Equiv.Perm (Fin cin.n)) (τ : Equiv.Perm (Fin cout.n))
    (f : Fin cin.n → ℕ → K) (out out' : Fin cout.n → ℕ → Option K)
    (h : localPool .max dev eps cin cout radius f = .ok out)
    (h' : localPool .max dev' eps (cin.relabel σ) (cout.relabel τ) radius (fun i => f (σ i)) = .ok out')
    (i : Fin cout.n) (ch : ℕ) : out' i ch = out (τ i) ch := by
  have hok' : PoolOk (cin.relabel σ) radii eps :=
    ⟨fun i => hok.valid (σ i), hok.radius_pos, hok.radius_min, hok.eps_pos⟩
  have a := C43_local_max dev eps cin cout radius radii hr hok f out h (τ i) ch
  have b := C43_local_max dev' eps (cin.relabel σ) (cout.relabel τ) radius radii hr hok' _ out' h' i ch
  refine b.unique ?_
  apply a.equiv (σ.symm : Fin cin.n ≃ Fin cin.n)
  · intro p
    have := nbrs_relabel cin cout (radii 0) σ τ p (τ i)
    rw [Equiv.symm_apply_apply] at this
    exact this
  · intro p
    exact congrFun (congrArg f (σ.apply_symm_apply p)) ch

theorem C43_order_global {α : Type*} (c : Cloud α) (σ : Equiv.Perm (Fin c.n)) (f : Fin c.n → ℕ → K)
    (b : Fin c.B) (ch : ℕ) :
    globalPool .max (c.relabel σ) (fun i => f (σ i)) b ch = globalPool .max c f b ch := by
  refine (C43_global_max (c.relabel σ) _ b ch).unique ?_
  apply (C43_global_max c f b ch).equiv (σ.symm : Fin c.n ≃ Fin c.n)
  · intro p
    have h1 : ∀ (n : ℕ) (g : Fin n → ℕ) (q : Fin n), q ∈ Finset.univ.filter (fun i => g i = b.val) ↔ g q = b.val := by
      intro n g q; simp
    refine (h1 _ (c.relabel σ).batch _).trans (Iff.trans ?_ (h1 _ c.batch p).symm)
    show c.batch (σ (σ.symm p)) = b.val ↔ c.batch p = b.val
    rw [Equiv.apply_symm_apply]
  · intro p
    exact congrFun (congrArg f (σ.apply_symm_apply p)) ch

/-! ## C44 -/

/-- **C44, global average pooling** is the mean over the batch element. -/
theorem C44_global_mean {α : Type*} (c : Cloud α) (f : Fin c.n → ℕ → K) (b : Fin c.B) (ch : ℕ) :
    globalPool .mean c f b ch =
      some (meanOf (Finset.univ.filter (fun i => c.batch i = b.val)) (fun i => f i ch)) :=
  globalPool_spec .mean c f b ch

/-- **C44, local average pooling** is the mean over the points within the radius,
0 for empty neighbourhoods. -/
theorem C44_local_mean (dev : Device) (eps : K) (cin cout : Cloud (Fin (k + 2) → K))
    (radius : RadiusArg K) (radii : Fin (k + 2) → K) (hr : poolRadius (k + 2) radius = .ok radii)
    (hok : PoolOk cin radii eps) (f : Fin cin.n → ℕ → K) (out : Fin cout.n → ℕ → Option K)
    (h : localPool .mean dev eps cin cout radius f = .ok out) (c : Fin cout.n) (ch : ℕ) :
    out c ch = some (meanOf (nbrs cin cout (radii 0) c) (fun p => f p ch)) :=
  localPool_spec .mean dev eps cin cout radius radii hr hok f out h c ch

/-- **C44, bounds.** The mean of a non-empty set lies between every lower and
every upper bound of the features, in particular between minimum and maximum. -/
theorem C44_between {ι : Type*} (s : Finset ι) (hs : s.Nonempty) (g : ι → K) (lo hi : K)
    (hlo : ∀ p ∈ s, lo ≤ g p) (hhi : ∀ p ∈ s, g p ≤ hi) : lo ≤ meanOf s g ∧ meanOf s g ≤ hi := by
  have hc : (0 : K) < s.card := by exact_mod_cast hs.card_pos
  unfold meanOf
  rw [if_neg hs.card_pos.ne']
  constructor
  · rw [le_div_iff₀ hc]
    calc lo * s.card = ∑ _p ∈ s, lo := by rw [Finset.sum_const, nsmul_eq_mul, mul_comm]
      _ ≤ _ := Finset.sum_le_sum hlo
  · rw [div_le_iff₀ hc]
    calc ∑ p ∈ s, g p ≤ ∑ _p ∈ s, hi := Finset.sum_le_sum hhi
      _ = _ := by rw [Finset.sum_const, nsmul_eq_mul, mul_comm]

/-- **C44, constant features** are reproduced on non-empty neighbourhoods. -/
theorem C44_constant (dev : Device) (eps : K) (cin cout : Cloud (Fin (k + 2) → K))
    (radius : RadiusArg K) (radii : Fin (k + 2) → K) (hr : poolRadius (k + 2) radius = .ok radii)
    (hok : PoolOk cin radii eps) (v : ℕ → K) (out : Fin cout.n → ℕ → Option K)
    (h : localPool .mean dev eps cin cout radius (fun _ => v) = .ok out) (c : Fin cout.n) (ch : ℕ)
    (hne : (nbrs cin cout (radii 0) c).Nonempty) : out c ch = some (v ch) := by
  rw [C44_local_mean dev eps cin cout radius radii hr hok _ out h c ch]
  obtain ⟨h1, h2⟩ := C44_between (nbrs cin cout (radii 0) c) hne (fun _ => v ch) (v ch) (v ch)
    (fun _ _ => le_refl _) (fun _ _ => le_refl _)
  rw [le_antisymm h2 h1]

theorem meanOf_linear {ι : Type*} (s : Finset ι) (f g : ι → K) (a b : K) :
    meanOf s (fun p => a * f p + b * g p) = a * meanOf s f + b * meanOf s g := by
  unfold meanOf
  split
  · simp
  · rw [Finset.sum_add_distrib, ← Finset.mul_sum, ← Finset.mul_sum]
    ring

/-- **C44, linearity.** -/
theorem C44_linear (dev : Device) (eps : K) (cin cout : Cloud (Fin (k + 2) → K))
    (radius : RadiusArg K) (radii : Fin (k + 2) → K) (hr : poolRadius (k + 2) radius = .ok radii)
    (hok : PoolOk cin radii eps) (f g : Fin cin.n → ℕ → K) (a b : K)
    (outf outg out : Fin cout.n → ℕ → Option K)
    (hf : localPool .mean dev eps cin cout radius f = .ok outf)
    (hg : localPool .mean dev eps cin cout radius g = .ok outg)
    (h : localPool .mean dev eps cin cout radius (fun p ch => a * f p ch + b * g p ch) = .ok out)
    (c : Fin cout.n) (ch : ℕ) :
    ∃ x y, outf c ch = some x ∧ outg c ch = some y ∧ out c ch = some (a * x + b * y) := by
  refine ⟨_, _, C44_local_mean dev eps cin cout radius radii hr hok _ outf hf c ch,
    C44_local_mean dev eps cin cout radius radii hr hok _ outg hg c ch, ?_⟩
  rw [C44_local_mean dev eps cin cout radius radii hr hok _ out h c ch, ← meanOf_linear]

/-- **C43, C44: local pooling returns on the GPU** for non-empty output clouds
whose batch ids occur in the input cloud. -/
theorem C44_returns (op : PoolOp) (eps : K) (cin cout : Cloud (Fin (k + 2) → K))
    (radius : RadiusArg K) (radii : Fin (k + 2) → K) (hr : poolRadius (k + 2) radius = .ok radii)
    (hok : PoolOk cin radii eps) (hn : 0 < cout.n) (hB : ∀ i, cout.batch i < cin.B) (f : Fin cin.n → ℕ → K) :
    ∃ out, localPool op .gpu eps cin cout radius f = .ok out := by
  obtain ⟨r, hr'⟩ := findNeighbors_gpu_returns (⟨cin, radii, eps⟩ : Grid (k + 2) K) cout radii hok.valid
    (fun d => lt_of_lt_of_le hok.radius_pos (hok.radius_min d)) hok.eps_pos hn hB
  unfold localPool
  rw [hr]
  dsimp only
  have : Nbh.new .gpu (⟨cin, radii, eps⟩ : Grid (k + 2) K) radii (some cout) =
      .ok ⟨⟨cin, radii, eps⟩, radii, cout, false, r⟩ := by
    unfold Nbh.new
    simp only
    rw [hr']
  rw [this]
  exact ⟨_, rfl⟩

/-! ## C45 -/

/-- **C45, refuted.** The documented `float` radius raises `IndexError`, for
every cloud and every radius. -/
theorem C45_float_radius_raises (op : PoolOp) (dev : Device) (eps : K) (cin cout : Cloud (Fin (k + 2) → K))
    (r : K) (f : Fin cin.n → ℕ → K) :
    localPool op dev eps cin cout (.scalar r) f = .error .indexError := by
  unfold localPool poolRadius
  rfl

/-- **C45, partial.** Missing: plain floats.  A vector of one entry is a common
radius, a vector of `D` entries is used per dimension, other vectors are
rejected. -/
theorem C45_vector_radius_partial (D : ℕ) (r : K) (l : List K) :
    poolRadius D (.vec [r]) = .ok (fun _ => r) ∧
      (l.length = D → l.length ≠ 1 → ∃ radii : Fin D → K, poolRadius D (.vec l) = .ok radii ∧ List.ofFn radii = l) ∧
      (l.length ≠ D → l.length ≠ 1 → poolRadius D (.vec l) = .error .invalidArgument) := by
  refine ⟨rfl, ?_, ?_⟩
  · intro hl h1
    subst hl
    match l, h1 with
    | [], _ => exact ⟨_, rfl, by simp⟩
    | [_], h1 => simp at h1
    | a :: b :: l', _ =>
      refine ⟨fun d => (a :: b :: l')[d.val], ?_, ?_⟩
      · unfold poolRadius
        simp
      · exact List.ofFn_getElem
  · intro hl h1
    match l, hl, h1 with
    | [], hl, _ =>
      simp only [poolRadius]
      rw [dif_neg hl]
    | [_], _, h1 => simp at h1
    | a :: b :: l', hl, _ =>
      simp only [poolRadius]
      rw [dif_neg hl]

end

/-- **C45, refuted**: a documented call does not return. -/
theorem C45_float_radius_false :
    ¬ (∀ (op : PoolOp) (dev : Device) (cin cout : Cloud (Fin 2 → ℚ)) (r : ℚ) (f : Fin cin.n → ℕ → ℚ),
      0 < r → cin.Valid → ∃ out, localPool (k := 0) op dev 1 cin cout (.scalar r) f = .ok out) := by
  intro H
  obtain ⟨out, ho⟩ := H .max .gpu twoPts twoPts 1 (fun _ _ => 0) one_pos (by decide)
  rw [C45_float_radius_raises] at ho
  cases ho

/-! ## C46 -/

section
variable {K : Type*} [Field K]

/-- **C46, point-wise.** Equal features at two points (of any two clouds) give
equal outputs: no other point matters. -/
theorem C46_pointwise {n n' : ℕ} (cin : ℕ) (w : ℕ → ℕ → K) (b : ℕ → K) (f : Fin n → ℕ → K) (f' : Fin n' → ℕ → K)
    (i : Fin n) (i' : Fin n') (h : ∀ x < cin, f i x = f' i' x) (o : ℕ) :
    conv1x1 cin w b f i o = conv1x1 cin w b f' i' o := by
  unfold conv1x1
  congr 1
  apply Finset.sum_congr rfl
  intro x hx
  rw [h x (Finset.mem_range.mp hx)]

/-- **C46, affine.** Affine combinations of features are mapped to the same
combinations of outputs. -/
theorem C46_affine {n : ℕ} (cin : ℕ) (w : ℕ → ℕ → K) (b : ℕ → K) (f g : Fin n → ℕ → K) (s t : K) (hst : s + t = 1)
    (i : Fin n) (o : ℕ) :
    conv1x1 cin w b (fun j x => s * f j x + t * g j x) i o =
      s * conv1x1 cin w b f i o + t * conv1x1 cin w b g i o := by
  unfold conv1x1
  have : b o = s * b o + t * b o := by rw [← add_mul, hst, one_mul]
  rw [mul_add, mul_add, Finset.mul_sum, Finset.mul_sum]
  have h2 : ∑ x ∈ Finset.range cin, (s * f i x + t * g i x) * w x o =
      ∑ x ∈ Finset.range cin, s * (f i x * w x o) + ∑ x ∈ Finset.range cin, t * (g i x * w x o) := by
    rw [← Finset.sum_add_distrib]
    apply Finset.sum_congr rfl
    intro x _
    ring
  rw [h2]
  linear_combination this

/-- **C46, reordering and selection.** Any rearrangement (or selection,
repetition) of the points commutes with the layer. -/
theorem C46_reorder {n n' : ℕ} (cin : ℕ) (w : ℕ → ℕ → K) (b : ℕ → K) (f : Fin n → ℕ → K) (σ : Fin n' → Fin n)
    (i : Fin n') (o : ℕ) :
    conv1x1 cin w b (fun j => f (σ j)) i o = conv1x1 cin w b f (σ i) o := rfl

/-- **C46, weights.** The layer is determined by its action on unit features:
column `x` of the weights is the difference between the output of the `x`-th
unit vector and the output of 0, which is the bias. -/
theorem C46_weights (cin : ℕ) (w : ℕ → ℕ → K) (b : ℕ → K) (x o : ℕ) (hx : x < cin) :
    conv1x1 (n := 1) cin w b (fun _ _ => 0) 0 o = b o ∧
      conv1x1 (n := 1) cin w b (fun _ y => if y = x then 1 else 0) 0 o = w x o + b o := by
  unfold conv1x1
  constructor
  · simp
  · simp [hx]

end

/-! ## C77 -/

section
variable {K : Type*} [Field K] [LinearOrder K] [IsStrictOrderedRing K] [FloorRing K]

/-- **C77, partial.** Missing: clouds without batch shape.  With a batch shape of
the right size, padded global pooling returns this shape, and the entry at a
multi index is the pooled value of the batch element with this index. -/
theorem C77_padded_partial (op : PoolOp) {α : Type*} (o : CloudObj α) (sh : List ℕ) (hsh : o.batchShape = some sh)
    (hprod : sh.prod = o.c.B) (f : Fin o.c.n → ℕ → K) :
    ∃ rows, globalPoolPadded op o f = .ok (sh, rows) ∧ rows.length = sh.prod ∧
      ∀ (ix : List ℕ) (b : ℕ) (ch : ℕ), CloudObj.rowMajor sh ix = some b → ∀ hb : b < o.c.B,
        ∃ r, rows[b]? = some r ∧
          PoolSpec op (Finset.univ.filter (fun i => o.c.batch i = b)) (fun i => f i ch) (r ch) := by
  refine ⟨List.ofFn (fun b : Fin o.c.B => globalPool op o.c f b), ?_, by simp [hprod], ?_⟩
  · unfold globalPoolPadded
    rw [hsh]
    simp only [hprod, if_true]
  · intro ix b ch _ hb
    refine ⟨globalPool op o.c f ⟨b, hb⟩, by simp [hb], ?_⟩
    exact globalPool_spec op o.c f ⟨b, hb⟩ ch

/-- **C77, shape.** Whenever padded global pooling returns, the shape is the batch
shape of the cloud and there is exactly one row per entry of that shape and per
batch element. -/
theorem C77_shape (op : PoolOp) {α : Type*} (o : CloudObj α) (f : Fin o.c.n → ℕ → K) (sh : List ℕ)
    (rows : List (ℕ → Option K)) (h : globalPoolPadded op o f = .ok (sh, rows)) :
    o.batchShape = some sh ∧ rows.length = sh.prod ∧ sh.prod = o.c.B := by
  unfold globalPoolPadded at h
  split at h
  · cases h
  · rename_i sh' hs
    split at h
    · rename_i hp
      cases h
      exact ⟨hs, by simp [hp], hp⟩
    · cases h

/-- A cloud given by batch ids has no batch shape; padded global pooling raises
`ValueError`, for every such cloud. -/
theorem C77_segmented_raises (op : PoolOp) {α : Type*} (c : Cloud α) (f : Fin c.n → ℕ → K) :
    globalPoolPadded op (CloudObj.ofCloud c) f = .error .valueError := rfl

end

/-- **C77, refuted**: the documented padded result is not available for every
point cloud. -/
theorem C77_padded_false :
    ¬ (∀ (op : PoolOp) (o : CloudObj (Fin 2 → ℚ)) (f : Fin o.c.n → ℕ → ℚ), o.c.Valid →
      ∃ r, globalPoolPadded op o f = .ok r) := by
  intro H
  obtain ⟨r, hr⟩ := H .max (CloudObj.ofCloud twoPts) (fun _ _ => 0) (by decide)
  have := (C77_segmented_raises .max twoPts (fun _ _ => (0 : ℚ))).symm.trans hr
  cases this

/-- Non-vacuity: pooling on two points at distance 1 with radius 2 returns on
the GPU. -/
example : ∃ out, localPool (k := 0) .max .gpu 1 twoPts twoPts (.vec [2]) (fun p _ => (p.val : ℚ)) = .ok out :=
  C44_returns .max 1 twoPts twoPts (.vec [2]) (fun _ => 2) rfl
    ⟨by decide, by norm_num, fun _ => le_refl _, by norm_num⟩ (by decide) (by decide) _

end PC
