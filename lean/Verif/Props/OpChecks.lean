import Verif.OpChecks
import Verif.CudaScanLemmas2
import Verif.PointCloud
import Mathlib.Tactic

/-!
# C104, C105: which calls the custom operations accept

The statements describe calls by the sizes a user chooses: numbers of points,
batch elements and dimensions, the shapes of `cell_sizes`, `radius` and
`bandwidth`, numbers of features and of basis functions.
-/

namespace PC

/-- The documented shapes of a per-dimension argument: a number, one entry, or
one entry per dimension. -/
def DocShape (D : ℕ) (s : List ℕ) : Prop := s = [] ∨ s = [1] ∨ s = [D]

/-! ### helper lemmas -/

theorem castShape_doc {D : ℕ} {s : List ℕ} (h : DocShape D s) : castShape D s = [D] := by
  rcases h with rfl | rfl | rfl
  · rfl
  · simp [castShape]
  · unfold castShape
    split
    · simp_all
    · rename_i t h; simp at h; simp [h.1, h.2]
    · rfl

theorem radiiShape_doc {D : ℕ} {s : List ℕ} (h : DocShape D s) : radiiShape D s = [D] := by
  rcases h with rfl | rfl | rfl <;> simp [radiiShape]

theorem bcast_doc (B D : ℕ) : bcast [B, D] [D] = .ok [B, D] := by
  simp [bcast, bcastRev]

theorem opRequires_eq_ok {b : Bool} : opRequires b = .ok () ↔ b = true := by
  cases b <;> simp [opRequires]

theorem launchBlocks_eq_zero {W e : ℕ} (hW : 0 < W) : launchBlocks W e = 0 ↔ e = 0 := by
  unfold launchBlocks; split <;> omega

theorem execBlocks_eq_zero {n len : ℕ} (hl : 0 < len) : execBlocks n len = 0 ↔ n = 0 := by
  have := lt_execBlocks (n := n) (c := 0) hl
  omega

theorem runLaunches_ok {W : ℕ} (hW : 0 < W) (es : List ℕ) :
    runLaunches W es = .ok () ↔ ∀ e ∈ es, e ≠ 0 := by
  induction es with
  | nil => simp [runLaunches]
  | cons e es ih =>
    by_cases he : e = 0
    · simp [runLaunches, launchBlocks_eq_zero hW, he]
    · simp [runLaunches, launchBlocks_eq_zero hW, he, ih]

theorem runLaunches_abort {W : ℕ} (hW : 0 < W) (es : List ℕ) :
    runLaunches W es = .error .aborted ↔ ∃ e ∈ es, e = 0 := by
  induction es with
  | nil => simp [runLaunches]
  | cons e es ih =>
    by_cases he : e = 0
    · simp [runLaunches, launchBlocks_eq_zero hW, he]
    · simp only [runLaunches, launchBlocks_eq_zero hW, he, if_false, ih, List.mem_cons]
      constructor
      · rintro ⟨x, hx, h0⟩; exact ⟨x, Or.inr hx, h0⟩
      · rintro ⟨x, rfl | hx, h0⟩
        · exact absurd h0 he
        · exact ⟨x, hx, h0⟩

/-- What a guarded step does. -/
theorem opRequires_bind {α : Type} (b : Bool) (k : Except OpFail α) :
    (opRequires b >>= fun _ => k) = if b then k else .error .rejected := by
  cases b <;> rfl

theorem opDimsOk_iff {D : ℕ} : opDimsOk D = true ↔ 2 ≤ D ∧ D ≤ 6 := by
  simp [opDimsOk]

theorem keysOp_std {W bs n B D : ℕ} :
    computeKeysOp W bs [n, D] [n] [B, D] [D] [D] =
      if opDimsOk D then runLaunches W [execBlocks n bs] else .error .rejected := by
  show (opRequires (opDimsOk D) >>= fun _ => opRequires (n == n) >>= fun _ => opRequires (D == D) >>=
    fun _ => opRequires (D == D) >>= fun _ => opRequires (D == D) >>= fun _ => _) = _
  rw [opRequires_bind]
  simp [opRequires]
  rfl

theorem dsOp_std {W bs n B D : ℕ} :
    buildGridDsOp W bs [n] [D] [D] B =
      if 0 < B ∧ opDimsOk D then runLaunches W [execBlocks n bs] else .error .rejected := by
  show (opRequires (decide (0 < B)) >>= fun _ => opRequires (opDimsOk D) >>= fun _ =>
    opRequires (D == D) >>= fun _ => _) = _
  rw [opRequires_bind, opRequires_bind, opRequires_bind]
  by_cases hB : 0 < B <;> cases h : opDimsOk D <;> simp [hB]

theorem fnOp_std {W bs n m B D Dc c0 c1 : ℕ} {lim : Bool} :
    findNeighborsOp W bs [m, Dc] [m] [n, D] [n] [B, c0, c1, 2] [D] [B, D] [D] [D] lim =
      if opDimsOk Dc ∧ D = Dc then runLaunches W (searchLaunches bs m lim) else .error .rejected := by
  show (opRequires (opDimsOk Dc) >>= fun _ => opRequires (D == Dc) >>= fun _ => opRequires (D == Dc) >>=
    fun _ => opRequires (D == Dc) >>= fun _ => opRequires (D == Dc) >>= fun _ => opRequires (D == Dc) >>=
    fun _ => opRequires (m == m) >>= fun _ => opRequires (n == n) >>= fun _ => opRequires _ >>=
    fun _ => _) = _
  simp only [opRequires_bind]
  by_cases hD : D = Dc <;> cases h : opDimsOk Dc <;> simp [hD]

theorem searchLaunches_zero {bs m : ℕ} (hbs : 0 < bs) (lim : Bool) :
    (∀ e ∈ searchLaunches bs m lim, e ≠ 0) ↔ m ≠ 0 := by
  cases lim <;> simp [searchLaunches, execBlocks_eq_zero hbs,
    execBlocks_eq_zero (Nat.mul_pos hbs (by norm_num : 0 < 2))]

/-! ### the properties -/

/-- Building a grid (documented `cell_sizes`) runs on the GPU exactly for 2 to
6 dimensions and at least one point. -/
theorem C104_grid {W bs n B D : ℕ} (hW : 0 < W) (hbs : 0 < bs) {cs : List ℕ} (hcs : DocShape D cs) :
    (∃ g, gridShape W bs n B D cs = .ok g) ↔ (2 ≤ D ∧ D ≤ 6) ∧ 0 < n := by
  unfold gridShape
  simp only [castShape_doc hcs, bcast_doc]
  show (∃ g, (computeKeysOp W bs [n, D] [n] [B, D] [D] [D] >>= fun _ => pure _) = Except.ok g) ↔ _
  rw [keysOp_std]
  cases h : opDimsOk D
  · have : ¬ (2 ≤ D ∧ D ≤ 6) := by rw [← opDimsOk_iff, h]; simp
    constructor
    · rintro ⟨g, hg⟩; cases hg
    · rintro ⟨h1, _⟩; exact absurd h1 this
  · rw [if_pos rfl]
    have h2 := opDimsOk_iff.mp h
    by_cases hn : n = 0
    · have : runLaunches W [execBlocks n bs] = .error .aborted := by
        rw [runLaunches_abort hW]; exact ⟨_, by simp, (execBlocks_eq_zero hbs).mpr hn⟩
      rw [this]
      constructor
      · rintro ⟨g, hg⟩; cases hg
      · rintro ⟨_, h3⟩; omega
    · have : runLaunches W [execBlocks n bs] = .ok () := by
        rw [runLaunches_ok hW]
        simp [execBlocks_eq_zero hbs, hn]
      rw [this]
      exact ⟨fun _ => ⟨h2, by omega⟩, fun _ => ⟨_, rfl⟩⟩

/-- The shapes of an accepted grid are the ones the kernels index with: one row
per batch element, one column per dimension. -/
theorem C104_grid_shape {W bs n B D : ℕ} {cs : List ℕ} (hcs : DocShape D cs) {g : GridShape}
    (h : gridShape W bs n B D cs = .ok g) : g = ⟨n, B, D, [D], [B, D], [D]⟩ := by
  unfold gridShape at h
  simp only [castShape_doc hcs, bcast_doc] at h
  change (computeKeysOp W bs [n, D] [n] [B, D] [D] [D] >>= fun _ => pure _) = _ at h
  cases hk : computeKeysOp W bs [n, D] [n] [B, D] [D] [D] with
  | error e => rw [hk] at h; cases h
  | ok u => rw [hk] at h; cases h; rfl

/-- Cell sizes with any other number of entries are rejected with an error (at
least two dimensions). -/
theorem C104_cell_sizes {W bs n B D k : ℕ} (hD : 2 ≤ D) (hk1 : k ≠ 1) (hkD : k ≠ D) :
    gridShape W bs n B D [k] = .error .rejected := by
  have h1 : castShape D [k] = [k] := by
    unfold castShape
    split
    · simp_all
    · rename_i t h; simp at h; exact absurd h.1 hk1
    · rfl
  have h2 : bcast [B, D] [k] = .error .rejected := by
    have hDk : D ≠ k := fun h => hkD h.symm
    have hD1 : D ≠ 1 := by omega
    simp [bcast, bcastRev, hDk, hD1, hk1]
  unfold gridShape
  simp only [h1, h2]
  rfl

/-- A neighbour search (documented `radius`) runs on the GPU exactly if the
grid does, the batch is not empty, the centres have the dimension of the grid
and there is at least one centre. -/
theorem C104_search {W bs n B D m Dc c0 c1 : ℕ} (hW : 0 < W) (hbs : 0 < bs) {cs rs : List ℕ}
    (hcs : DocShape D cs) (hrs : DocShape D rs) (lim : Bool) {g : GridShape}
    (hg : gridShape W bs n B D cs = .ok g) :
    searchShape W bs c0 c1 g m Dc (radiiShape D rs) lim = .ok () ↔ 0 < B ∧ Dc = D ∧ 0 < m := by
  have hn := (C104_grid hW hbs hcs).mp ⟨g, hg⟩
  have hD : opDimsOk D = true := opDimsOk_iff.mpr hn.1
  have hr : runLaunches W [execBlocks n bs] = .ok () := by
    rw [runLaunches_ok hW]
    have := hn.2
    simp [execBlocks_eq_zero hbs]; omega
  obtain rfl := C104_grid_shape hcs hg
  unfold searchShape
  simp only [radiiShape_doc hrs]
  rw [dsOp_std, fnOp_std]
  by_cases hB : 0 < B
  · rw [if_pos ⟨hB, hD⟩, hr]
    show (if opDimsOk Dc ∧ D = Dc then runLaunches W (searchLaunches bs m lim) else .error .rejected) = .ok () ↔ _
    by_cases hDc : D = Dc
    · subst hDc
      rw [if_pos ⟨hD, rfl⟩, runLaunches_ok hW, searchLaunches_zero hbs]
      constructor
      · intro h; exact ⟨hB, rfl, by omega⟩
      · rintro ⟨_, _, h⟩; omega
    · rw [if_neg (fun h => hDc h.2)]
      constructor
      · intro h; cases h
      · rintro ⟨_, h, _⟩; exact absurd h.symm hDc
  · rw [if_neg (fun h => hB h.1)]
    constructor
    · intro h; cases h
    · rintro ⟨h, _⟩; exact absurd h hB

/-- Densities: `compute_pdf` on the neighbourhood of a grid's own points. -/
theorem C104_pdf {W bs n D M : ℕ} (hW : 0 < W) (hbs : 0 < bs) {bw rs : List ℕ} (hbw : DocShape D bw)
    (hrs : DocShape D rs) {mode : ℤ} :
    computePdfOp W bs mode [n, D] [M, 2] [n] (castShape D bw) (radiiShape D rs) = .ok () ↔
      (0 ≤ mode ∧ mode ≤ 1) ∧ (2 ≤ D ∧ D ≤ 6) ∧ 0 < n := by
  rw [castShape_doc hbw, radiiShape_doc hrs]
  show (opRequires _ >>= fun _ => opRequires (n == n) >>= fun _ => opRequires (opDimsOk D) >>= fun _ =>
    opRequires (D == D) >>= fun _ => opRequires (D == D) >>= fun _ => opRequires _ >>= fun _ => _) = _ ↔ _
  simp only [opRequires_bind]
  rw [← opDimsOk_iff]
  have hl : ∀ es : List ℕ, (∀ e ∈ es, e = execBlocks n bs) → es ≠ [] → (runLaunches W es = .ok () ↔ 0 < n) := by
    intro es h1 h2
    rw [runLaunches_ok hW]
    constructor
    · intro h
      obtain ⟨e, he⟩ := List.exists_mem_of_ne_nil _ h2
      have := h e he
      rw [h1 e he, Ne, execBlocks_eq_zero hbs] at this
      omega
    · intro h e he h0
      rw [h1 e he, execBlocks_eq_zero hbs] at h0
      omega
  by_cases hm : 0 ≤ mode ∧ mode ≤ 1
  · have hm' : (decide (0 ≤ mode) && decide (mode < 2)) = true := by simp; omega
    rw [if_pos hm']
    cases hD : opDimsOk D
    · simp
    · simp only [hm, if_true, beq_self_eq_true, true_and, and_self]
      exact hl _ (by simp) (by simp)
  · have hm' : ¬ ((decide (0 ≤ mode) && decide (mode < 2)) = true) := by simp; omega
    rw [if_neg hm']
    simp [hm]

/-- Gradients of densities, with one gradient per point. -/
theorem C104_pdf_grads {W bs n D M : ℕ} (hW : 0 < W) (hbs : 0 < bs) {bw rs : List ℕ} (hbw : DocShape D bw)
    (hrs : DocShape D rs) {mode : ℤ}
    (h : computePdfOp W bs mode [n, D] [M, 2] [n] (castShape D bw) (radiiShape D rs) = .ok ()) :
    computePdfGradsOp W bs mode [n, D] [M, 2] [n] (castShape D bw) (radiiShape D rs) [n] = .ok () := by
  obtain ⟨hm, hD, hn⟩ := (C104_pdf hW hbs hbw hrs).mp h
  rw [castShape_doc hbw, radiiShape_doc hrs]
  show (opRequires _ >>= fun _ => opRequires (n == n) >>= fun _ => opRequires (opDimsOk D) >>= fun _ =>
    opRequires (D == D) >>= fun _ => opRequires (D == D) >>= fun _ => opRequires _ >>= fun _ =>
    opRequires (n == n) >>= fun _ => _) = _
  have hm' : (decide (0 ≤ mode) && decide (mode < 2)) = true := by simp; omega
  simp only [opRequires_bind, hm', opDimsOk_iff.mpr hD, if_true, beq_self_eq_true]
  simp [runLaunches_ok hW, execBlocks_eq_zero hbs]; omega

/-- Sampling from a neighbourhood of a grid's own points; the two modes are 0
and 1. -/
theorem C104_sampling {W bs n D M : ℕ} (hW : 0 < W) (hbs : 0 < bs) {mode : ℤ} :
    samplingOp W bs mode [n, D] [n] [n] [D] [M, 2] [n] = .ok () ↔
      (0 ≤ mode ∧ mode ≤ 1) ∧ (2 ≤ D ∧ D ≤ 6) ∧ 0 < n := by
  show (opRequires _ >>= fun _ => opRequires (opDimsOk D) >>= fun _ => opRequires (n == n) >>= fun _ =>
    opRequires (n == n) >>= fun _ => opRequires (D == D) >>= fun _ => opRequires _ >>= fun _ =>
    opRequires (n == n) >>= fun _ => _) = _ ↔ _
  simp only [opRequires_bind]
  rw [← opDimsOk_iff]
  have hl : ∀ es : List ℕ, (∀ e ∈ es, e = execBlocks n bs) → es ≠ [] → (runLaunches W es = .ok () ↔ 0 < n) := by
    intro es h1 h2
    rw [runLaunches_ok hW]
    constructor
    · intro h
      obtain ⟨e, he⟩ := List.exists_mem_of_ne_nil _ h2
      have := h e he
      rw [h1 e he, Ne, execBlocks_eq_zero hbs] at this
      omega
    · intro h e he h0
      rw [h1 e he, execBlocks_eq_zero hbs] at h0
      omega
  by_cases hm : 0 ≤ mode ∧ mode ≤ 1
  · have hm' : (decide (0 ≤ mode) && decide (mode < 2)) = true := by simp; omega
    rw [if_pos hm']
    cases hD : opDimsOk D
    · simp
    · simp only [hm, if_true, beq_self_eq_true, true_and, and_self]
      exact hl _ (by simp) (by simp)
  · have hm' : ¬ ((decide (0 ≤ mode) && decide (mode < 2)) = true) := by simp; omega
    rw [if_neg hm']
    simp [hm]

/-- The claim in full, that every cloud is accepted, fails: clouds of one
dimension are rejected. -/
theorem C104_dims_false : ¬ ∀ (n D : ℕ), 0 < n → 0 < D → ∃ g, gridShape 1 128 n 1 D [] = .ok g := by
  intro h
  obtain ⟨g, hg⟩ := h 5 1 (by norm_num) (by norm_num)
  have := (C104_grid (n := 5) (B := 1) (by norm_num) (by norm_num) (Or.inl rfl)).mp ⟨g, hg⟩
  omega

/-- An empty cloud is not reported as an error: the process ends. -/
theorem C104_empty_false : ¬ ∀ (n D : ℕ) (cs : List ℕ), DocShape D cs →
    gridShape 1 128 n 1 D cs ≠ .error .aborted := by
  intro h
  exact h 0 3 [3] (Or.inr (Or.inr rfl)) (by decide +kernel)

/-- Centres of more batch elements than the grid has are accepted, although the
search reads the row of the bounding boxes and of the table given by the batch
id of the centre. -/
theorem C104_batches_false : ¬ ∀ (c cc : Cloud (Fin 3 → ℕ)) (g : GridShape), c.Valid → cc.Valid →
    gridShape 1 128 c.n c.B 3 [] = .ok g →
    searchShape 1 128 4 4 g cc.n 3 [3] false = .ok () → ∀ i, cc.batch i < g.B := by
  intro h
  have := h ⟨2, fun _ _ => 0, fun _ => 0, 1⟩ ⟨2, fun _ _ => 0, fun i => i.val, 2⟩
    ⟨2, 1, 3, [3], [1, 3], [3]⟩ (by intro i; simp) (by intro i; exact i.isLt)
    (by decide +kernel) (by decide +kernel) 1
  simp at this

/-- The checks look at the first dimension of `cell_sizes` only: a table of
sizes per batch element is accepted if there are as many batch elements as
dimensions, and the kernels use its first row for all of them. -/
theorem C104_rank_false : ¬ ∀ (n B D : ℕ) (cs : List ℕ) (g : GridShape),
    gridShape 1 128 n B D cs = .ok g → g.cs = [D] := by
  intro h
  have := h 5 3 3 [3, 3] ⟨5, 3, 3, [3, 3], [3, 3], [3]⟩ (by decide +kernel)
  simp at this

/-! ### C105: sizes of the convolution layers -/

/-- The projection and its gradient accept a layer with `nb` basis functions
and `cin` input features exactly for 8, 16, 32 or 64 basis functions and 1 to
7 features or a multiple of 8. -/
theorem C105_projection {W n m M nb cin : ℕ} (hW : 0 < W) (hm : 0 < m) :
    basisProjOp W [M, nb] [n, cin] [M, 2] [m] = .ok () ↔
      (nb = 8 ∨ nb = 16 ∨ nb = 32 ∨ nb = 64) ∧ 0 < cin ∧ (cin < 8 ∨ 8 ∣ cin) := by
  show (opRequires (opBasisOk nb) >>= fun _ => opRequires (opFeaturesOk cin) >>= fun _ =>
    opRequires (M == M) >>= fun _ => opRequires _ >>= fun _ => _) = _ ↔ _
  simp only [opRequires_bind]
  have hb : opBasisOk nb = true ↔ (nb = 8 ∨ nb = 16 ∨ nb = 32 ∨ nb = 64) := by
    simp [opBasisOk]; tauto
  have hf : opFeaturesOk cin = true ↔ 0 < cin ∧ (cin < 8 ∨ 8 ∣ cin) := by
    simp only [opFeaturesOk, Bool.and_eq_true, Bool.or_eq_true, decide_eq_true_eq, beq_iff_eq]
    rw [Nat.dvd_iff_mod_eq_zero]
  rw [← hb, ← hf]
  cases h1 : opBasisOk nb
  · simp
  · cases h2 : opFeaturesOk cin
    · simp
    · have h3 := hf.mp h2
      have h4 : cin / min 8 cin ≠ 0 := by
        have : 0 < min 8 cin := by omega
        have := Nat.div_pos (min_le_right 8 cin) this
        omega
      simp [runLaunches_ok hW, h4]
      omega

/-- Gradients are accepted whenever the projection is, for a gradient of the
shape of the result. -/
theorem C105_projection_grads {W n m M nb cin : ℕ} 
    (h : basisProjOp W [M, nb] [n, cin] [M, 2] [m] = .ok ()) :
    basisProjGradsOp W [M, nb] [n, cin] [M, 2] [m] [m, cin, nb] = .ok () := by
  change (opRequires (opBasisOk nb) >>= fun _ => opRequires (opFeaturesOk cin) >>= fun _ =>
    opRequires (M == M) >>= fun _ => opRequires _ >>= fun _ => _) = _ at h
  show (opRequires (opBasisOk nb) >>= fun _ => opRequires (opFeaturesOk cin) >>= fun _ =>
    opRequires (M == M) >>= fun _ => opRequires _ >>= fun _ => opRequires _ >>= fun _ => _) = _
  simp only [opRequires_bind] at h ⊢
  cases h1 : opBasisOk nb
  · simp [h1] at h
  · cases h2 : opFeaturesOk cin
    · simp [h1, h2] at h
    · simpa [h1, h2] using h

/-- An `MCConv` layer the constructor accepts works on the GPU exactly if the
number of MLPs times the size of their last layer is 8, 16, 32 or 64 and the
number of input features is below 8 or a multiple of 8. -/
theorem C105_mcconv {K : Type*} [Field K] {W n m M cin cout mlps : ℕ} (hW : 0 < W) (hm : 0 < m)
    {layers : List (MlpLayer K)} {final : ℕ → ℕ → ℕ → K} {L : MCLayer K}
    (hL : MCLayer.new cin cout mlps layers final = .ok L) :
    basisProjOp W [M, L.mlps * L.hid] [n, L.cin] [M, 2] [m] = .ok () ↔
      (let s := mlps * ((layers.getLast?.map MlpLayer.size).getD 0)
       s = 8 ∨ s = 16 ∨ s = 32 ∨ s = 64) ∧ 0 < cin ∧ (cin < 8 ∨ 8 ∣ cin) := by
  have : L = ⟨cin, cout, mlps, layers, final⟩ := by
    unfold MCLayer.new at hL
    by_cases h1 : mlps = 0
    · rw [if_pos h1] at hL; cases hL
    · by_cases h2 : cout % mlps ≠ 0
      · rw [if_neg h1, if_pos h2] at hL; cases hL
      · by_cases h3 : layers = []
        · rw [if_neg h1, if_neg h2, if_pos h3] at hL; cases hL
        · rw [if_neg h1, if_neg h2, if_neg h3] at hL; cases hL; rfl
  subst this
  exact C105_projection hW hm

/-- The claim in full, that every layer works on the GPU, fails: 12 input
features. -/
theorem C105_features_false : ¬ ∀ (cin cout mlps : ℕ) (layers : List (MlpLayer ℚ)) (final : ℕ → ℕ → ℕ → ℚ)
    (L : MCLayer ℚ), 0 < cin → MCLayer.new cin cout mlps layers final = .ok L →
    basisProjOp 1 [5, L.mlps * L.hid] [4, L.cin] [5, 2] [2] = .ok () := by
  intro h
  have h2 := h 12 8 4 [⟨8, fun _ _ _ => 0, fun _ _ => 0⟩] (fun _ _ _ => 0) _ (by norm_num) rfl
  have := (C105_projection (by norm_num) (by norm_num)).mp h2
  obtain ⟨_, _, h3⟩ := this
  simp at h3

/-- … and a layer with 3 MLPs of the default size 8. -/
theorem C105_basis_false : ¬ ∀ (cin cout mlps : ℕ) (layers : List (MlpLayer ℚ)) (final : ℕ → ℕ → ℕ → ℚ)
    (L : MCLayer ℚ), cin = 8 → MCLayer.new cin cout mlps layers final = .ok L →
    basisProjOp 1 [5, L.mlps * L.hid] [4, L.cin] [5, 2] [2] = .ok () := by
  intro h
  have h2 := h 8 12 3 [⟨8, fun _ _ _ => 0, fun _ _ => 0⟩] (fun _ _ _ => 0) _ rfl rfl
  have := (C105_projection (by norm_num) (by norm_num)).mp h2
  obtain ⟨h3, _⟩ := this
  simp [MCLayer.hid] at h3

/-- `KPConv` pads its weights, so that only the number of features and a number
of kernel points above 64 matter. -/
theorem C105_kpconv {W n m M nk cin : ℕ} (hW : 0 < W) (hm : 0 < m) :
    basisProjOp W [M, nk + padCols nk] [n, cin] [M, 2] [m] = .ok () ↔
      nk ≤ 64 ∧ 0 < cin ∧ (cin < 8 ∨ 8 ∣ cin) := by
  rw [C105_projection hW hm]
  have : (nk + padCols nk = 8 ∨ nk + padCols nk = 16 ∨ nk + padCols nk = 32 ∨ nk + padCols nk = 64) ↔
      nk ≤ 64 := by
    unfold padCols
    split_ifs <;> omega
  rw [this]

/-- Input features of all convolutions of the ModelNet40 network (modelnet40.py
lines 153, 163-181, 298-315): 1 for the first one, a quarter of the features of the
block for the others. -/
def netConvFeatures (feats : List ℕ) : List ℕ := 1 :: feats.map (· / 4)

/-- All convolutions of the ModelNet40 network are accepted for all three layer
types (16, 15 padded, 32 basis functions) if the numbers of features are
positive multiples of 32. -/
theorem C105_network {W n m M : ℕ} (hW : 0 < W) (hm : 0 < m) (feats : List ℕ)
    (hf : ∀ f ∈ feats, 0 < f ∧ 32 ∣ f) (cin : ℕ) (hc : cin ∈ netConvFeatures feats) :
    basisProjOp W [M, 1 * 16] [n, cin] [M, 2] [m] = .ok () ∧
    basisProjOp W [M, 15 + padCols 15] [n, cin] [M, 2] [m] = .ok () ∧
    basisProjOp W [M, 32] [n, cin] [M, 2] [m] = .ok () := by
  have h : 0 < cin ∧ (cin < 8 ∨ 8 ∣ cin) := by
    simp only [netConvFeatures, List.mem_cons, List.mem_map] at hc
    rcases hc with rfl | ⟨f, hfm, rfl⟩
    · omega
    · obtain ⟨h1, h2⟩ := hf f hfm
      omega
  refine ⟨?_, ?_, ?_⟩
  · exact (C105_projection hW hm).mpr ⟨by norm_num, h⟩
  · exact (C105_kpconv hW hm).mpr ⟨by norm_num, h⟩
  · exact (C105_projection hW hm).mpr ⟨by norm_num, h⟩

/-! ### concrete cases -/

-- a grid over 1000 points in 3D, cells of one size
example : ∃ g, gridShape 40 128 1000 8 3 [1] = .ok g :=
  (C104_grid (by norm_num) (by norm_num) (Or.inr (Or.inl rfl))).mpr ⟨by norm_num, by norm_num⟩
example : DocShape 3 [3] := Or.inr (Or.inr rfl)
example : gridShape 40 128 1000 8 3 [2] = .error .rejected := C104_cell_sizes (by norm_num) (by norm_num) (by norm_num)
example : ∃ g, gridShape 40 128 1000 8 3 [] = .ok g ∧
    searchShape 40 128 7 9 g 50 3 (radiiShape 3 [3]) true = .ok () := by
  obtain ⟨g, hg⟩ := (C104_grid (W := 40) (bs := 128) (n := 1000) (B := 8) (D := 3) (cs := []) (by norm_num)
    (by norm_num) (Or.inl rfl)).mpr ⟨by norm_num, by norm_num⟩
  exact ⟨g, hg, (C104_search (by norm_num) (by norm_num) (Or.inl rfl) (Or.inr (Or.inr rfl)) true hg).mpr
    ⟨by norm_num, rfl, by norm_num⟩⟩
-- the feature sizes of modelnet40.py:560
example : ∀ f ∈ [128, 256, 512, 1024, 2048], 0 < f ∧ 32 ∣ f := by decide

end PC
