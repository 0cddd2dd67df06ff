import Verif.CudaProjLemmas
import Verif.CudaSamplingLemmas

/-!
# Lemmas on the gradient of the basis projection
-/

set_option linter.unusedVariables false

namespace PC

open ProjAddr

section
variable {α : Type*} [Zero α] [Add α] [Sub α] [Mul α]

/-- The upstream gradients of the iteration are in shared memory. -/
def GradsIn (I : ProjIn α) (c : ProjCfg) (g : ℕ → α) (it : ℕ) (m : ProjAddr → α) : Prop :=
  ∀ a < c.K * c.gf, m (sh (c.gradPtr + a)) = g (I.sample c it * I.nf * c.K + I.off c it * c.K + a)

theorem gradPtr_eq (c : ProjCfg) (a : ℕ) : c.gradPtr + a = c.featPtr + (c.G * c.gf + a) := by
  unfold ProjCfg.gradPtr ProjCfg.featPtr; omega

/-- Loading the upstream gradients. -/
theorem gradInitPhase (I : ProjIn α) {c : ProjCfg} (h : CfgOk c) (g : ℕ → α) (it : ℕ) {tr : List (GradAct α)}
    (hi : Interleave (gradThreads c (gradInit I c g it)) tr) (m : ProjAddr → α) :
    GradsIn I c g it (runB m tr).1 ∧ (runB m tr).2 = [] := by
  obtain ⟨h1, h2, h3⟩ := phase_localB hi ∅
    (fun t => { x | t < c.B ∧ ∃ a ∈ strideLoop c.B (c.K * c.gf) t, x = sh (c.gradPtr + a) })
    (fun t a ha => absurd ha (Set.notMem_empty a)) (by
      rintro t t' hne x ⟨ht, a, ha, rfl⟩ ⟨ht', a', ha', e⟩
      have : a = a' := by have := sh.inj e; omega
      subst this
      exact hne (strideLoop_thread ht ht' ha ha')) (by
      intro t ht act hact
      obtain ⟨a, ha, rfl⟩ := List.mem_map.mp hact
      exact LocalB.setB ⟨ht, a, ha, rfl⟩ (fun _ _ _ => rfl)) m
  have key : ∀ t, (∀ a ∈ strideLoop c.B (c.K * c.gf) t, (runB m (gradInit I c g it t)).1 (sh (c.gradPtr + a)) =
      g (I.sample c it * I.nf * c.K + I.off c it * c.K + a)) ∧ (runB m (gradInit I c g it t)).2 = [] := by
    intro t
    obtain ⟨k1, _, k3⟩ := runB_sets (E := (ℕ ⊕ ℕ) × α) (strideLoop c.B (c.K * c.gf) t) (nodup_strideLoop t)
      (fun a => sh (c.gradPtr + a)) (fun a (_ : ProjAddr → α) => g (I.sample c it * I.nf * c.K + I.off c it * c.K + a))
      (fun i _ j _ e => by have := sh.inj e; omega) (fun _ _ _ _ _ => rfl) m
    exact ⟨k1, k3⟩
  refine ⟨?_, ?_⟩
  · intro a ha
    have hmem := mem_strideLoop_mod h.B_pos ha
    have hlt := Nat.mod_lt a h.B_pos
    rw [h1 _ hlt _ ⟨hlt, a, hmem, rfl⟩]
    exact (key _).1 a hmem
  · have : (List.range c.B).flatMap (fun t => (runB m (gradInit I c g it t)).2) = [] := by
      rw [List.flatMap_eq_nil_iff]
      intro t _
      exact (key t).2
    rw [this] at h3
    exact List.perm_nil.mp h3

/-- State after the loads of pass `k`. -/
def GLoaded (I : ProjIn α) (c : ProjCfg) (it k : ℕ) (m : ProjAddr → α) : Prop :=
  (∀ t < c.B, m (reg t 0) = wtV I c it k t ∧ m (reg t 1) = 0 ∧ m (reg t 2) = 0) ∧
  ∀ g < c.G, g + k * c.G + I.lo c it < I.hi c it → ∀ f < c.gf,
    m (sh (c.featPtr + (g * c.gf + f))) =
      I.feats ((I.nb (g + k * c.G + I.lo c it)).1 * I.nf + I.off c it + f)

theorem gradLoadPhase (I : ProjIn α) {c : ProjCfg} (h : CfgOk c) (g : ℕ → α) (it k : ℕ) {tr : List (GradAct α)}
    (hi : Interleave (gradThreads c (gradLoad I c it k)) tr) (m : ProjAddr → α) (hm : GradsIn I c g it m) :
    GradsIn I c g it (runB m tr).1 ∧ GLoaded I c it k (runB m tr).1 ∧ (runB m tr).2 = [] := by
  obtain ⟨h1, h2, h3⟩ := phase_localB hi ∅ (loadFoot c) (fun t a ha => absurd ha (Set.notMem_empty a))
    (loadFoot_disj h) (by
      intro t ht act hact
      have hr : ∀ r (v : α), LocalB ∅ (loadFoot c t) (setB (reg t r) (fun _ => v) : GradAct α) := fun r v =>
        LocalB.setB ⟨ht, Or.inr (Or.inl ⟨r, rfl⟩)⟩ (fun _ _ _ => rfl)
      unfold gradLoad at hact
      dsimp only at hact
      rcases List.mem_append.mp hact with hact | hact
      · simp only [List.mem_cons, List.not_mem_nil, or_false] at hact
        rcases hact with rfl | rfl | rfl <;> exact hr _ _
      · split_ifs at hact with hj hl
        · rcases List.mem_cons.mp hact with rfl | hact
          · exact hr _ _
          · rw [List.mem_singleton] at hact; subst hact
            exact LocalB.setB ⟨ht, Or.inr (Or.inr ⟨hl, rfl⟩)⟩ (fun _ _ _ => rfl)
        · rcases List.mem_cons.mp hact with rfl | hact
          · exact hr _ _
          · cases hact
        · cases hact) m
  have key : ∀ t < c.B, (runB m (gradLoad I c it k t)).1 (reg t 0) = wtV I c it k t ∧
      (runB m (gradLoad I c it k t)).1 (reg t 1) = 0 ∧ (runB m (gradLoad I c it k t)).1 (reg t 2) = 0 ∧
      (I.pos c it k t < I.hi c it → c.lid t < c.gf →
        (runB m (gradLoad I c it k t)).1 (sh (c.featPtr + (c.gid t * c.gf + c.lid t))) =
          I.feats ((I.nb (I.pos c it k t)).1 * I.nf + I.off c it + c.lid t)) ∧
      (runB m (gradLoad I c it k t)).2 = [] := by
    intro t ht
    unfold gradLoad wtV
    dsimp only
    by_cases hj : I.pos c it k t < I.hi c it
    · simp only [if_pos hj]
      by_cases hl : c.lid t < c.gf
      · simp only [if_pos hl]
        simp [runB, setB, Function.update]
      · simp only [if_neg hl]
        simp [runB, setB, Function.update]
        intro _ h; omega
    · simp only [if_neg hj]
      simp [runB, setB, Function.update]
      intro h; omega
  refine ⟨?_, ⟨?_, ?_⟩, ?_⟩
  · intro a ha
    rw [h2 _ (by
      rintro t ht ⟨_, hb⟩
      rcases hb with ⟨f, hf, e⟩ | ⟨r, e⟩ | ⟨hl, e⟩
      · have := CfgOk.acc_lt hf ht
        have := sh.inj e
        unfold ProjCfg.gradPtr ProjCfg.featPtr at *
        omega
      · cases e
      · have h4 := sh_mul_add_lt hl (h.gid_lt ht)
        have h5 := sh.inj e
        rw [gradPtr_eq] at h5
        omega)]
    exact hm a ha
  · intro t ht
    have hf : ∀ r, reg t r ∈ loadFoot c t := fun r => ⟨ht, Or.inr (Or.inl ⟨r, rfl⟩)⟩
    rw [h1 t ht _ (hf 0), h1 t ht _ (hf 1), h1 t ht _ (hf 2)]
    exact ⟨(key t ht).1, (key t ht).2.1, (key t ht).2.2.1⟩
  · intro gg hg hlt f hf
    have hfK : f < c.K := lt_of_lt_of_le hf h.gf_le
    have ht := h.mk_lt hg hfK
    have e1 := h.gid_mk (g := gg) hfK
    have e2 := h.lid_mk (g := gg) hfK
    have hpos : I.pos c it k (gg * c.K + f) = gg + k * c.G + I.lo c it := by unfold ProjIn.pos; rw [e1]
    have := (key _ ht).2.2.2.1 (by rw [hpos]; exact hlt) (by rw [e2]; exact hf)
    rw [e1, e2, hpos] at this
    rw [← this]
    exact h1 _ ht _ ⟨ht, Or.inr (Or.inr ⟨by rw [e2]; exact hf, by rw [e1, e2]⟩)⟩
  · have : (List.range c.B).flatMap (fun t => (runB m (gradLoad I c it k t)).2) = [] := by
      rw [List.flatMap_eq_nil_iff]
      intro t ht
      exact (key t (List.mem_range.mp ht)).2.2.2.2
    rw [this] at h3
    exact List.perm_nil.mp h3

/-- The register program of one step of compensated summation. -/
theorem kahanActs_run (t a e : ℕ) (x : (ProjAddr → α) → α) (hae : a ≠ e) (ha3 : a ≠ 3) (ha4 : a ≠ 4)
    (he3 : e ≠ 3) (he4 : e ≠ 4) (m : ProjAddr → α) :
    ((runB m (kahanActs t a e x)).1 (reg t a), (runB m (kahanActs t a e x)).1 (reg t e)) =
      kahanStep (m (reg t a), m (reg t e)) (x m) ∧
    (∀ y, (∀ r, y ≠ reg t r) → (runB m (kahanActs t a e x)).1 y = m y) ∧
    (∀ r, r ≠ a → r ≠ e → r ≠ 3 → r ≠ 4 → (runB m (kahanActs t a e x)).1 (reg t r) = m (reg t r)) ∧
    (runB m (kahanActs t a e x)).2 = [] := by
  have h1 : reg t a ≠ reg t e := fun h => hae (reg.inj h).2
  unfold kahanActs
  simp only [runB, setB, List.nil_append]
  refine ⟨?_, ?_, ?_, trivial⟩
  · simp [Function.update, kahanStep, kahanStepFl, ha3, ha4, he3, he4, hae, Ne.symm hae, Ne.symm ha3, Ne.symm ha4,
      Ne.symm he3, Ne.symm he4]
  · intro y hy
    rw [Function.update_of_ne (hy a), Function.update_of_ne (hy e), Function.update_of_ne (hy 4),
      Function.update_of_ne (hy 3)]
  · intro r h1 h2 h3 h4
    have : ∀ r', r ≠ r' → reg t r ≠ reg t r' := fun r' h e => h (reg.inj e).2
    rw [Function.update_of_ne (this a h1), Function.update_of_ne (this e h2), Function.update_of_ne (this 4 h4),
      Function.update_of_ne (this 3 h3)]

/-- What thread `t` computes from the loaded data. -/
theorem gradComp_run {c : ProjCfg} {t : ℕ} (ht : t < c.B) (l : List ℕ) (hnd : l.Nodup) (hl : ∀ f ∈ l, f < c.gf) :
    ∀ m : ProjAddr → α,
    let p : List (GradAct α) := l.flatMap (fun f =>
      setB (sh (f * c.B + t)) (fun m => m (sh (c.gradPtr + (f * c.K + c.lid t))) * m (reg t 0)) ::
      kahanActs t 1 2 (fun m => m (sh (c.gradPtr + (f * c.K + c.lid t))) *
        m (sh (c.featPtr + (c.gid t * c.gf + f)))))
    (∀ f ∈ l, (runB m p).1 (sh (f * c.B + t)) = m (sh (c.gradPtr + (f * c.K + c.lid t))) * m (reg t 0)) ∧
    ((runB m p).1 (reg t 1), (runB m p).1 (reg t 2)) = (l.map (fun f => m (sh (c.gradPtr + (f * c.K + c.lid t))) *
      m (sh (c.featPtr + (c.gid t * c.gf + f))))).foldl kahanStep (m (reg t 1), m (reg t 2)) ∧
    (∀ i, (∀ f ∈ l, i ≠ f * c.B + t) → (runB m p).1 (sh i) = m (sh i)) ∧
    (runB m p).2 = [] := by
  induction l with
  | nil => intro m; simp [runB]
  | cons f l ih =>
    intro m p
    have hfl : f ∉ l := (List.nodup_cons.mp hnd).1
    have hf : f < c.gf := hl f List.mem_cons_self
    set m1 := Function.update m (sh (f * c.B + t)) (m (sh (c.gradPtr + (f * c.K + c.lid t))) * m (reg t 0)) with hm1
    have hbig : ∀ i, c.featPtr ≤ i → m1 (sh i) = m (sh i) := by
      intro i hi
      rw [hm1, Function.update_of_ne]
      intro e
      have := CfgOk.acc_lt hf ht
      have := sh.inj e
      omega
    have hreg : ∀ r, m1 (reg t r) = m (reg t r) := fun r => Function.update_of_ne (by simp) _ _
    obtain ⟨k1, k3, k4, k5⟩ := kahanActs_run t 1 2
      (fun m : ProjAddr → α => m (sh (c.gradPtr + (f * c.K + c.lid t))) * m (sh (c.featPtr + (c.gid t * c.gf + f))))
      (by decide) (by decide) (by decide) (by decide) (by decide) m1
    set m2 := (runB m1 (kahanActs t 1 2 (fun m : ProjAddr → α => m (sh (c.gradPtr + (f * c.K + c.lid t))) *
      m (sh (c.featPtr + (c.gid t * c.gf + f)))))).1 with hm2
    have hge : ∀ a, c.featPtr ≤ c.gradPtr + a := fun a => by rw [gradPtr_eq]; omega
    have hsh : ∀ i, m2 (sh i) = m1 (sh i) := fun i => k3 _ (by simp)
    have hbig2 : ∀ i, c.featPtr ≤ i → m2 (sh i) = m (sh i) := fun i hi => (hsh i).trans (hbig i hi)
    have hr0 : m2 (reg t 0) = m (reg t 0) := (k4 0 (by decide) (by decide) (by decide) (by decide)).trans (hreg 0)
    obtain ⟨i1, i2, i3, i4⟩ := ih (List.nodup_cons.mp hnd).2 (fun x hx => hl x (List.mem_cons_of_mem _ hx)) m2
    have e : runB m p = ((runB m2 (l.flatMap (fun f =>
        setB (sh (f * c.B + t)) (fun m => m (sh (c.gradPtr + (f * c.K + c.lid t))) * m (reg t 0)) ::
        kahanActs t 1 2 (fun m => m (sh (c.gradPtr + (f * c.K + c.lid t))) *
          m (sh (c.featPtr + (c.gid t * c.gf + f))))))).1, []) := by
      simp only [p, List.flatMap_cons, List.cons_append]
      rw [runB]
      simp only [setB, List.nil_append]
      rw [runB_append]
      simp only [← hm1, ← hm2, k5, List.nil_append]
      rw [Prod.mk.injEq]
      exact ⟨rfl, i4⟩
    rw [e]
    refine ⟨?_, ?_, ?_, rfl⟩
    · intro x hx
      rcases List.mem_cons.mp hx with rfl | hx
      · simp only
        rw [i3 _ (fun y hy e => hfl (by rw [(sh_mul_add_inj ht ht e).1]; exact hy)), hsh, hm1, Function.update_self]
      · simp only
        rw [i1 x hx, hbig2 _ (hge _), hr0]
    · simp only
      rw [i2, List.map_cons, List.foldl_cons]
      rw [hreg, hreg, hbig _ (hge _), hbig _ (Nat.le_add_right _ _)] at k1
      rw [k1]
      congr 1
      refine List.map_congr_left (fun x _ => ?_)
      rw [hbig2 _ (hge _), hbig2 _ (Nat.le_add_right _ _)]
    · intro i hi
      simp only
      rw [i3 i (fun y hy => hi y (List.mem_cons_of_mem _ hy)), hsh, hm1, Function.update_of_ne]
      intro e
      exact hi f List.mem_cons_self (sh.inj e)

/-- State after the products of pass `k`. -/
def GComputed (I : ProjIn α) (c : ProjCfg) (g : ℕ → α) (it k : ℕ) (m : ProjAddr → α) : Prop :=
  (∀ t < c.B, I.pos c it k t < I.hi c it → m (reg t 1) =
    (kahan ((List.range c.gf).map (fun f =>
      g (I.sample c it * I.nf * c.K + I.off c it * c.K + (f * c.K + c.lid t)) *
      I.feats ((I.nb (I.pos c it k t)).1 * I.nf + I.off c it + f)))).1) ∧
  ∀ t < c.B, ∀ f < c.gf, m (sh (f * c.B + t)) =
    g (I.sample c it * I.nf * c.K + I.off c it * c.K + (f * c.K + c.lid t)) * wtV I c it k t

theorem gradCompPhase (I : ProjIn α) {c : ProjCfg} (h : CfgOk c) (g : ℕ → α) (it k : ℕ) {tr : List (GradAct α)}
    (hi : Interleave (gradThreads c (gradComp c)) tr) (m : ProjAddr → α) (hm : GradsIn I c g it m)
    (hl : GLoaded I c it k m) :
    GradsIn I c g it (runB m tr).1 ∧ GComputed I c g it k (runB m tr).1 ∧ (runB m tr).2 = [] := by
  obtain ⟨h1, h2, h3⟩ := phase_localB hi (featSet c) (accFoot c) featSet_acc accFoot_disj (by
      intro t ht act hact
      obtain ⟨f, hf, hact⟩ := List.mem_flatMap.mp hact
      rw [List.mem_range] at hf
      have hreg : ∀ r, reg t r ∈ accFoot c t := fun r => ⟨ht, Or.inr ⟨r, rfl⟩⟩
      have hG : ∀ a, sh (c.gradPtr + a) ∈ featSet c := fun a => ⟨_, by rw [gradPtr_eq]⟩
      have hF : ∀ a, sh (c.featPtr + a) ∈ featSet c := fun a => ⟨_, rfl⟩
      simp only [kahanActs, List.mem_cons, List.not_mem_nil, or_false] at hact
      rcases hact with rfl | rfl | rfl | rfl | rfl
      · refine LocalB.setB ⟨ht, Or.inl ⟨f, hf, rfl⟩⟩ (fun m m' hmm => ?_)
        rw [hmm _ (Or.inr (hG _)), hmm _ (Or.inl (hreg 0))]
      · refine LocalB.setB (hreg 3) (fun m m' hmm => ?_)
        rw [hmm _ (Or.inr (hG _)), hmm _ (Or.inr (hF _)), hmm _ (Or.inl (hreg 2))]
      · refine LocalB.setB (hreg 4) (fun m m' hmm => ?_)
        rw [hmm _ (Or.inl (hreg 1)), hmm _ (Or.inl (hreg 3))]
      · refine LocalB.setB (hreg 2) (fun m m' hmm => ?_)
        rw [hmm _ (Or.inl (hreg 1)), hmm _ (Or.inl (hreg 3)), hmm _ (Or.inl (hreg 4))]
      · refine LocalB.setB (hreg 1) (fun m m' hmm => ?_)
        rw [hmm _ (Or.inl (hreg 4))]) m
  have hgr : ∀ f < c.gf, ∀ l < c.K, m (sh (c.gradPtr + (f * c.K + l))) =
      g (I.sample c it * I.nf * c.K + I.off c it * c.K + (f * c.K + l)) := by
    intro f hf l hl
    refine hm _ ?_
    rw [Nat.mul_comm c.K]
    exact sh_mul_add_lt hl hf
  have key : ∀ t < c.B, _ := fun t ht => gradComp_run (α := α) (c := c) ht (List.range c.gf) List.nodup_range
    (fun f hf => List.mem_range.mp hf) m
  refine ⟨?_, ⟨?_, ?_⟩, ?_⟩
  · intro a ha
    rw [h2 _ (fun t ht => featSet_acc t _ ⟨c.G * c.gf + a, by rw [gradPtr_eq]⟩)]
    exact hm a ha
  · intro t ht hlt
    rw [h1 t ht _ ⟨ht, Or.inr ⟨1, rfl⟩⟩]
    refine (congrArg Prod.fst (key t ht).2.1).trans ?_
    rw [(hl.1 t ht).2.1, (hl.1 t ht).2.2]
    unfold kahan
    congr 2
    refine List.map_congr_left (fun f hf => ?_)
    rw [List.mem_range] at hf
    rw [hgr f hf _ (h.lid_lt t), hl.2 _ (h.gid_lt ht) hlt f hf]
    rfl
  · intro t ht f hf
    rw [h1 t ht _ ⟨ht, Or.inl ⟨f, hf, rfl⟩⟩]
    refine ((key t ht).1 f (List.mem_range.mpr hf)).trans ?_
    rw [hgr f hf _ (h.lid_lt t), (hl.1 t ht).1]
  · have : (List.range c.B).flatMap (fun t => (runB m (gradComp c t)).2) = [] := by
      rw [List.flatMap_eq_nil_iff]
      intro t ht
      exact (key t (List.mem_range.mp ht)).2.2.2
    rw [this] at h3
    exact List.perm_nil.mp h3

/-- Compensated sum of shared memory in registers 5 and 6. -/
theorem kahanRegs_run (t : ℕ) (l : List ℕ) (addr : ℕ → ℕ) : ∀ m : ProjAddr → α,
    let p : List (GradAct α) := l.flatMap (fun kk => kahanActs t 5 6 (fun m => m (sh (addr kk))))
    ((runB m p).1 (reg t 5), (runB m p).1 (reg t 6)) =
      (l.map (fun kk => m (sh (addr kk)))).foldl kahanStep (m (reg t 5), m (reg t 6)) ∧ (runB m p).2 = [] := by
  induction l with
  | nil => intro m; simp [runB]
  | cons x l ih =>
    intro m p
    obtain ⟨k1, k3, k4, k5⟩ := kahanActs_run t 5 6 (fun m : ProjAddr → α => m (sh (addr x)))
      (by decide) (by decide) (by decide) (by decide) (by decide) m
    obtain ⟨i1, i2⟩ := ih (runB m (kahanActs t 5 6 (fun m : ProjAddr → α => m (sh (addr x))))).1
    simp only [p, List.flatMap_cons, runB_append, k5, List.nil_append]
    refine ⟨?_, i2⟩
    refine i1.trans ?_
    rw [k1, List.map_cons, List.foldl_cons]
    have : (l.map (fun kk => (runB m (kahanActs t 5 6 (fun m : ProjAddr → α => m (sh (addr x))))).1 (sh (addr kk)))) =
        l.map (fun kk => m (sh (addr kk))) :=
      List.map_congr_left (fun y _ => k3 _ (by simp))
    rw [this]

/-- The additions for the neighbour at position `j` by the thread with local
index `l`, in any arithmetic. -/
def gradAddsA (I : ProjIn α) (c : ProjCfg) (g : ℕ → α) (it j l : ℕ) : List ((ℕ ⊕ ℕ) × α) :=
  (Sum.inl (j * c.K + l), (kahan ((List.range c.gf).map (fun f =>
      g (I.sample c it * I.nf * c.K + I.off c it * c.K + (f * c.K + l)) *
      I.feats ((I.nb j).1 * I.nf + I.off c it + f)))).1) ::
  (if l < c.gf then [(Sum.inr ((I.nb j).1 * I.nf + I.off c it + l), (kahan ((List.range c.K).map (fun kk =>
      g (I.sample c it * I.nf * c.K + I.off c it * c.K + (l * c.K + kk)) * I.basis (j * c.K + kk)))).1)] else [])

theorem gradOutPhase (I : ProjIn α) {c : ProjCfg} (h : CfgOk c) (g : ℕ → α) (it k : ℕ) {tr : List (GradAct α)}
    (hi : Interleave (gradThreads c (gradOut I c it k)) tr) (m : ProjAddr → α) (hm : GradsIn I c g it m)
    (hc : GComputed I c g it k m) :
    GradsIn I c g it (runB m tr).1 ∧
    (runB m tr).2.Perm ((List.range c.B).flatMap (fun t => if I.pos c it k t < I.hi c it then
      gradAddsA I c g it (I.pos c it k t) (c.lid t) else [])) := by
  obtain ⟨h1, h2, h3⟩ := phase_localB hi { a | ∃ i, a = sh i } (fun t => { a | ∃ r, a = reg t r })
    (by rintro t a ⟨i, rfl⟩ ⟨r, e⟩; cases e)
    (by rintro t t' hne a ⟨r, rfl⟩ ⟨r', e⟩; exact hne (reg.inj e).1) (by
      intro t ht act hact
      have hreg : ∀ r, reg t r ∈ { a | ∃ r, a = reg t r } := fun r => ⟨r, rfl⟩
      unfold gradOut at hact
      dsimp only at hact
      split_ifs at hact with hj hl
      · simp only [List.mem_cons, List.mem_append, List.not_mem_nil, or_false] at hact
        rcases hact with rfl | ((rfl | rfl) | hact) | rfl
        · exact LocalB.emitB (fun m m' hmm => by rw [hmm _ (Or.inl (hreg 1))])
        · exact LocalB.setB (hreg 5) (fun _ _ _ => rfl)
        · exact LocalB.setB (hreg 6) (fun _ _ _ => rfl)
        · obtain ⟨kk, hkk, hact⟩ := List.mem_flatMap.mp hact
          simp only [kahanActs, List.mem_cons, List.not_mem_nil, or_false] at hact
          rcases hact with rfl | rfl | rfl | rfl
          · refine LocalB.setB (hreg 3) (fun m m' hmm => ?_)
            rw [hmm _ (Or.inr ⟨_, rfl⟩), hmm _ (Or.inl (hreg 6))]
          · refine LocalB.setB (hreg 4) (fun m m' hmm => ?_)
            rw [hmm _ (Or.inl (hreg 5)), hmm _ (Or.inl (hreg 3))]
          · refine LocalB.setB (hreg 6) (fun m m' hmm => ?_)
            rw [hmm _ (Or.inl (hreg 5)), hmm _ (Or.inl (hreg 3)), hmm _ (Or.inl (hreg 4))]
          · refine LocalB.setB (hreg 5) (fun m m' hmm => ?_)
            rw [hmm _ (Or.inl (hreg 4))]
        · exact LocalB.emitB (fun m m' hmm => by rw [hmm _ (Or.inl (hreg 5))])
      · rw [List.mem_singleton] at hact
        subst hact
        exact LocalB.emitB (fun m m' hmm => by rw [hmm _ (Or.inl (hreg 1))])
      · cases hact) m
  refine ⟨?_, ?_⟩
  · intro a ha
    rw [h2 _ (by rintro t ht ⟨r, e⟩; cases e)]
    exact hm a ha
  · refine h3.trans (List.Perm.of_eq ?_)
    rw [List.flatMap_def, List.flatMap_def]
    congr 1
    refine List.map_congr_left (fun t ht => ?_)
    rw [List.mem_range] at ht
    unfold gradOut gradAddsA
    dsimp only
    by_cases hj : I.pos c it k t < I.hi c it
    · rw [if_pos hj, if_pos hj]
      rw [runB]
      simp only [emitB]
      rw [hc.1 t ht hj, List.cons_append, List.nil_append]
      congr 1
      by_cases hl : c.lid t < c.gf
      · rw [if_pos hl, if_pos hl, List.append_assoc, runB_append]
        simp only [runB, setB, List.nil_append]
        obtain ⟨k1, k2⟩ := kahanRegs_run t (List.range c.K) (fun kk => c.lid t * c.B + c.gid t * c.K + kk)
          (Function.update (Function.update m (reg t 5) 0) (reg t 6) 0)
        have k1 := congrArg Prod.fst k1
        dsimp only at k1
        rw [runB_append]
        simp only [k2, List.nil_append, runB, emitB, k1]
        rw [Function.update_of_ne (by simp), Function.update_self, Function.update_self, List.append_nil]
        unfold kahan
        congr 4
        refine List.map_congr_left (fun kk hkk => ?_)
        rw [List.mem_range] at hkk
        rw [Function.update_of_ne (by simp), Function.update_of_ne (by simp), Nat.add_assoc,
          hc.2 _ (h.mk_lt (h.gid_lt ht) hkk) _ hl, h.lid_mk hkk]
        have hp : I.pos c it k (c.gid t * c.K + kk) = I.pos c it k t := by
          unfold ProjIn.pos; rw [h.gid_mk hkk]
        unfold wtV
        rw [hp, if_pos hj, h.lid_mk hkk]
      · rw [if_neg hl, if_neg hl]; rfl
    · rw [if_neg hj, if_neg hj]; rfl

/-- The additions of the first `n` passes. -/
theorem gradPasses_run (I : ProjIn α) {c : ProjCfg} (h : CfgOk c) (g : ℕ → α) (it : ℕ) (n : ℕ) :
    ∀ (p : List (GradAct α)), Phased ((List.range n).flatMap (fun k =>
      [gradThreads c (gradLoad I c it k), gradThreads c (gradComp c), gradThreads c (gradOut I c it k)])) p →
    ∀ m : ProjAddr → α, GradsIn I c g it m → GradsIn I c g it (runB m p).1 ∧
      (runB m p).2.Perm ((List.range n).flatMap (fun k => (List.range c.B).flatMap (fun t =>
        if I.pos c it k t < I.hi c it then gradAddsA I c g it (I.pos c it k t) (c.lid t) else []))) := by
  induction n with
  | zero =>
    intro p hp m hm
    rw [List.range_zero, List.flatMap_nil] at hp
    rw [hp.nil_inv]
    exact ⟨hm, List.Perm.refl _⟩
  | succ n ih =>
    intro p hp m hm
    rw [List.range_succ, List.flatMap_append, List.flatMap_singleton] at hp
    obtain ⟨p1, p2, rfl, hp1, hp2⟩ := hp.append_inv
    obtain ⟨a1, a2⟩ := ih p1 hp1 m hm
    cases hp2 with
    | @cons _ _ t1 t2 hx next =>
      cases next with
      | @cons _ _ t3 t4 hy next =>
        have hz := next.single_inv
        obtain ⟨b1, b2, b3⟩ := gradLoadPhase I h g it n hx (runB m p1).1 a1
        obtain ⟨c1, c2, c3⟩ := gradCompPhase I h g it n hy _ b1 b2
        obtain ⟨d1, d2⟩ := gradOutPhase I h g it n hz _ c1 c2
        rw [runB_append, runB_append, runB_append, b3, c3, List.range_succ, List.flatMap_append,
          List.flatMap_singleton]
        exact ⟨d1, a2.append d2⟩

/-- The additions of one iteration of the outer loop. -/
def iterAddsA (I : ProjIn α) (c : ProjCfg) (g : ℕ → α) (it : ℕ) : List ((ℕ ⊕ ℕ) × α) :=
  (rangeIdx I.ends (I.sample c it)).flatMap (fun j => (List.range c.K).flatMap (gradAddsA I c g it j))

theorem flatMap_range_block {β : Type*} (p G n lo : ℕ) (hn : n ≤ p * G) (E : ℕ → List β) :
    (List.range (p * G)).flatMap (fun x => if x + lo < n + lo then E (x + lo) else []) =
    ((List.range n).map (fun k => lo + k)).flatMap E := by
  obtain ⟨r, hr⟩ := Nat.exists_eq_add_of_le hn
  rw [hr, List.range_add, List.flatMap_append]
  have hz : ((List.range r).map (fun x => n + x)).flatMap
      (fun x => if x + lo < n + lo then E (x + lo) else []) = [] := by
    rw [List.flatMap_eq_nil_iff]
    intro x hx
    obtain ⟨y, _, rfl⟩ := List.mem_map.mp hx
    rw [if_neg (by omega)]
  rw [hz, List.append_nil, List.flatMap_map, List.flatMap_def, List.flatMap_def]
  congr 1
  refine List.map_congr_left (fun x hx => ?_)
  rw [List.mem_range] at hx
  rw [if_pos (by omega), Nat.add_comm]

theorem iterAddsA_eq (I : ProjIn α) {c : ProjCfg} (h : CfgOk c) (g : ℕ → α) (it : ℕ) :
    (List.range (I.passes c it)).flatMap (fun k => (List.range c.B).flatMap (fun t =>
      if I.pos c it k t < I.hi c it then gradAddsA I c g it (I.pos c it k t) (c.lid t) else [])) =
    iterAddsA I c g it := by
  have e1 : ∀ k, (List.range c.B).flatMap (fun t =>
      if I.pos c it k t < I.hi c it then gradAddsA I c g it (I.pos c it k t) (c.lid t) else []) =
      (List.range c.G).flatMap (fun gg => if gg + k * c.G + I.lo c it < I.hi c it then
        (List.range c.K).flatMap (gradAddsA I c g it (gg + k * c.G + I.lo c it)) else []) := by
    intro k
    rw [← h.B_eq, range_mul_eq, List.flatMap_assoc, List.flatMap_def, List.flatMap_def]
    congr 1
    refine List.map_congr_left (fun gg _ => ?_)
    rw [List.flatMap_map]
    by_cases hlt : gg + k * c.G + I.lo c it < I.hi c it
    · rw [if_pos hlt, List.flatMap_def, List.flatMap_def]
      congr 1
      refine List.map_congr_left (fun l hl => ?_)
      rw [List.mem_range] at hl
      unfold ProjIn.pos
      rw [h.gid_mk hl, h.lid_mk hl, if_pos hlt]
    · rw [if_neg hlt, List.flatMap_eq_nil_iff]
      intro l hl
      rw [List.mem_range] at hl
      unfold ProjIn.pos
      rw [h.gid_mk hl, if_neg hlt]
  simp only [e1]
  have e2 : iterAddsA I c g it = ((List.range (I.hi c it - I.lo c it)).map (fun k => I.lo c it + k)).flatMap
      (fun j => (List.range c.K).flatMap (gradAddsA I c g it j)) := rfl
  rw [e2, ← flatMap_range_block (I.passes c it) c.G _ _ (h.passes_mul I it), range_mul_eq, List.flatMap_assoc,
    List.flatMap_def, List.flatMap_def]
  congr 1
  refine List.map_congr_left (fun k _ => ?_)
  rw [List.flatMap_map, List.flatMap_def, List.flatMap_def]
  congr 1
  refine List.map_congr_left (fun gg _ => ?_)
  rw [Nat.add_comm (k * c.G)]
  by_cases hlt : gg + k * c.G + I.lo c it < I.hi c it
  · rw [if_pos hlt, if_pos (by omega)]
  · rw [if_neg hlt, if_neg (by omega)]

theorem gradPhases_runA (I : ProjIn α) {c : ProjCfg} (h : CfgOk c) (g : ℕ → α) (it : ℕ) (p : List (GradAct α))
    (hp : Phased (gradPhases I c g it) p) (m : ProjAddr → α) : (runB m p).2.Perm (iterAddsA I c g it) := by
  obtain ⟨p1, p2, rfl, hp1, hp2⟩ := hp.append_inv
  obtain ⟨a1, a2⟩ := gradInitPhase I h g it hp1.single_inv m
  obtain ⟨_, b2⟩ := gradPasses_run I h g it _ p2 hp2 _ a1
  rw [runB_append, a2, List.nil_append, ← iterAddsA_eq I h]
  exact b2

end

/-! ### exact arithmetic -/

section
variable {α : Type*} [Field α]

/-- The additions for the neighbour at position `j` by the thread with local
index `l`. -/
def gradAdds (I : ProjIn α) (c : ProjCfg) (g : ℕ → α) (it j l : ℕ) : List ((ℕ ⊕ ℕ) × α) :=
  (Sum.inl (j * c.K + l), ((List.range c.gf).map (fun f =>
      g (I.sample c it * I.nf * c.K + I.off c it * c.K + (f * c.K + l)) *
      I.feats ((I.nb j).1 * I.nf + I.off c it + f))).sum) ::
  (if l < c.gf then [(Sum.inr ((I.nb j).1 * I.nf + I.off c it + l), ((List.range c.K).map (fun kk =>
      g (I.sample c it * I.nf * c.K + I.off c it * c.K + (l * c.K + kk)) * I.basis (j * c.K + kk))).sum)] else [])

/-- The additions of one iteration of the outer loop. -/
def iterAdds (I : ProjIn α) (c : ProjCfg) (g : ℕ → α) (it : ℕ) : List ((ℕ ⊕ ℕ) × α) :=
  (rangeIdx I.ends (I.sample c it)).flatMap (fun j => (List.range c.K).flatMap (gradAdds I c g it j))

theorem kahan_fst_sum (l : List α) : (kahan l).1 = l.sum := by
  have : ∀ a : α, l.foldl kahanStep (a, 0) = (a + l.sum, 0) := by
    induction l with
    | nil => intro a; simp
    | cons x l ih =>
      intro a
      rw [List.foldl_cons, show kahanStep (a, 0) x = (a + x, 0) by simp [kahanStep, kahanStepFl], ih, List.sum_cons,
        add_assoc]
  unfold kahan
  rw [this, zero_add]

theorem gradAddsA_eq (I : ProjIn α) (c : ProjCfg) (g : ℕ → α) (it j l : ℕ) :
    gradAddsA I c g it j l = gradAdds I c g it j l := by
  unfold gradAddsA gradAdds
  rw [kahan_fst_sum, kahan_fst_sum]

theorem iterAddsA_exact (I : ProjIn α) (c : ProjCfg) (g : ℕ → α) (it : ℕ) : iterAddsA I c g it = iterAdds I c g it := by
  unfold iterAddsA iterAdds
  simp only [show ∀ j, gradAddsA I c g it j = gradAdds I c g it j from fun j => funext (gradAddsA_eq I c g it j)]

theorem gradPhases_run (I : ProjIn α) {c : ProjCfg} (h : CfgOk c) (g : ℕ → α) (it : ℕ) (p : List (GradAct α))
    (hp : Phased (gradPhases I c g it) p) (m : ProjAddr → α) : (runB m p).2.Perm (iterAdds I c g it) := by
  rw [← iterAddsA_exact]
  exact gradPhases_runA I h g it p hp m

/-! ### all iterations, all blocks -/

theorem iters_run {A V E : Type*} (ph : ℕ → List (List (List (BAct A V E)))) (W : ℕ → List E)
    (hrun : ∀ it p, Phased (ph it) p → ∀ m : A → V, (runB m p).2.Perm (W it)) (l : List ℕ) :
    ∀ p, Phased (l.flatMap ph) p → ∀ m : A → V, (runB m p).2.Perm (l.flatMap W) := by
  induction l with
  | nil =>
    intro p hp m
    rw [List.flatMap_nil] at hp
    rw [hp.nil_inv]
    exact List.Perm.refl _
  | cons it l ih =>
    intro p hp m
    rw [List.flatMap_cons] at hp
    obtain ⟨p1, p2, rfl, hp1, hp2⟩ := hp.append_inv
    rw [runB_append, List.flatMap_cons]
    exact (hrun it p1 hp1 m).append (ih p2 hp2 _)

/-- Effects of all blocks: those of all iterations, in some order. -/
theorem blocks_run {E : Type*} {TB N : ℕ} (hT : 0 < TB) (W : ℕ → List E) (effs : List (List E))
    (hlen : effs.length = TB)
    (hb : ∀ b (e : List E), effs[b]? = some e → e.Perm ((strideLoop TB N b).flatMap W)) {tr : List E}
    (hi : Interleave effs tr) : tr.Perm ((List.range N).flatMap W) := by
  refine hi.perm.trans ?_
  have : ∀ n ≤ TB, (effs.take n).flatten.Perm ((List.range n).flatMap (fun b => (strideLoop TB N b).flatMap W)) := by
    intro n
    induction n with
    | zero => intro _; simp
    | succ n ih =>
      intro hn
      have hlt : n < effs.length := by omega
      rw [List.take_add_one, List.getElem?_eq_getElem hlt, List.range_succ, List.flatMap_append,
        List.flatten_append, List.flatMap_singleton]
      refine (ih (by omega)).append ?_
      simp only [Option.toList_some, List.flatten_cons, List.flatten_nil, List.append_nil]
      exact hb n _ (List.getElem?_eq_getElem hlt)
  have h2 := this TB le_rfl
  rw [List.take_of_length_le (by omega)] at h2
  refine h2.trans ?_
  rw [← List.flatMap_assoc]
  refine List.Perm.flatMap_right _ ?_
  rw [List.flatMap_def]
  exact strideLoop_cover hT

end
end PC
