import Verif.CudaProj
import Verif.CudaStoreLemmas
import Mathlib.Algebra.BigOperators.Intervals

/-!
# Lemmas on the basis projection kernels
-/

set_option linter.unusedVariables false

namespace PC

/-! ### general -/

/-- A list of assignments to different addresses, each reading only addresses
the others do not write. -/
theorem runB_sets {A V E ι : Type*} [DecidableEq A] (l : List ι) (hnd : l.Nodup) (addr : ι → A)
    (f : ι → (A → V) → V) (hinj : ∀ i ∈ l, ∀ j ∈ l, addr i = addr j → i = j)
    (hdep : ∀ i ∈ l, ∀ m m' : A → V, (∀ a, (∀ j ∈ l, j ≠ i → addr j ≠ a) → m a = m' a) → f i m = f i m')
    (m : A → V) :
    (∀ i ∈ l, (runB m (l.map (fun i => (setB (addr i) (f i) : BAct A V E)))).1 (addr i) = f i m) ∧
    (∀ a, (∀ i ∈ l, a ≠ addr i) → (runB m (l.map (fun i => (setB (addr i) (f i) : BAct A V E)))).1 a = m a) ∧
    (runB m (l.map (fun i => (setB (addr i) (f i) : BAct A V E)))).2 = [] := by
  induction l generalizing m with
  | nil => exact ⟨fun i hi => by simp at hi, fun a _ => rfl, rfl⟩
  | cons x l ih =>
    have hx : x ∉ l := (List.nodup_cons.mp hnd).1
    obtain ⟨h1, h2, h3⟩ := ih (List.nodup_cons.mp hnd).2
      (fun i hi j hj => hinj i (List.mem_cons_of_mem _ hi) j (List.mem_cons_of_mem _ hj))
      (fun i hi m m' h => hdep i (List.mem_cons_of_mem _ hi) m m' (fun a ha =>
        h a (fun j hj hji => ha j (List.mem_cons_of_mem _ hj) hji)))
      (Function.update m (addr x) (f x m))
    have e : runB m ((x :: l).map (fun i => (setB (addr i) (f i) : BAct A V E))) =
        runB (Function.update m (addr x) (f x m)) (l.map (fun i => (setB (addr i) (f i) : BAct A V E))) := by
      simp [runB, setB]
    rw [e]
    refine ⟨?_, ?_, h3⟩
    · intro i hi
      rcases List.mem_cons.mp hi with rfl | hi'
      · rw [h2 (addr i) (fun j hj hij => hx (hinj i hi j (List.mem_cons_of_mem _ hj) hij ▸ hj)),
          Function.update_self]
      · rw [h1 i hi']
        refine hdep i hi _ _ (fun a ha => ?_)
        have : addr x ≠ a := ha x List.mem_cons_self (fun e => hx (e ▸ hi'))
        exact Function.update_of_ne this.symm _ _
    · intro a ha
      rw [h2 a (fun i hi => ha i (List.mem_cons_of_mem _ hi))]
      exact Function.update_of_ne (ha x List.mem_cons_self) _ _

theorem sh_mul_add_inj {B f f' t t' : ℕ} (ht : t < B) (ht' : t' < B) (h : f * B + t = f' * B + t') :
    f = f' ∧ t = t' := by
  have hB : 0 < B := by omega
  have h1 : (f * B + t) / B = f := by
    rw [Nat.add_comm, Nat.add_mul_div_right _ _ hB, Nat.div_eq_of_lt ht, Nat.zero_add]
  have h2 : (f' * B + t') / B = f' := by
    rw [Nat.add_comm, Nat.add_mul_div_right _ _ hB, Nat.div_eq_of_lt ht', Nat.zero_add]
  have hf : f = f' := by rw [← h1, ← h2, h]
  subst hf
  exact ⟨rfl, by omega⟩

theorem sh_mul_add_lt {B f t n : ℕ} (ht : t < B) (hf : f < n) : f * B + t < n * B := by
  calc f * B + t < f * B + B := by omega
    _ = (f + 1) * B := by ring
    _ ≤ n * B := Nat.mul_le_mul_right _ hf

theorem sum_range_mul_blocks {M : Type*} [AddCommMonoid M] (p G : ℕ) (h : ℕ → M) :
    ∑ x ∈ Finset.range (p * G), h x = ∑ k ∈ Finset.range p, ∑ g ∈ Finset.range G, h (g + k * G) := by
  induction p with
  | zero => simp
  | succ p ih =>
    rw [Nat.succ_mul, Finset.sum_range_add, ih, Finset.sum_range_succ]
    congr 1
    refine Finset.sum_congr rfl (fun g _ => ?_)
    rw [Nat.add_comm]

theorem foldl_congr_mem {ι β : Type*} (l : List ι) (F G : β → ι → β) (h : ∀ a, ∀ i ∈ l, F a i = G a i) (a : β) :
    l.foldl F a = l.foldl G a := by
  induction l generalizing a with
  | nil => rfl
  | cons x l ih =>
    rw [List.foldl_cons, List.foldl_cons, h a x List.mem_cons_self]
    exact ih (fun a i hi => h a i (List.mem_cons_of_mem _ hi)) _

/-! ### configurations -/

/-- The conditions guaranteed by the host code. -/
structure CfgOk (c : ProjCfg) : Prop where
  K_pos : 0 < c.K
  B_pos : 0 < c.B
  dvd : c.K ∣ c.B
  gf_pos : 0 < c.gf
  gf_le : c.gf ≤ c.K

theorem CfgOk.B_eq {c : ProjCfg} (h : CfgOk c) : c.G * c.K = c.B := Nat.div_mul_cancel h.dvd

theorem CfgOk.G_pos {c : ProjCfg} (h : CfgOk c) : 0 < c.G :=
  Nat.div_pos (Nat.le_of_dvd h.B_pos h.dvd) h.K_pos

theorem CfgOk.gid_lt {c : ProjCfg} (h : CfgOk c) {t : ℕ} (ht : t < c.B) : c.gid t < c.G := by
  unfold ProjCfg.gid
  rw [Nat.div_lt_iff_lt_mul h.K_pos, h.B_eq]
  exact ht

theorem CfgOk.lid_lt {c : ProjCfg} (h : CfgOk c) (t : ℕ) : c.lid t < c.K := Nat.mod_lt _ h.K_pos

theorem ProjCfg.gid_lid (c : ProjCfg) (t : ℕ) : c.gid t * c.K + c.lid t = t := by
  unfold ProjCfg.gid ProjCfg.lid
  rw [Nat.mul_comm]
  exact Nat.div_add_mod t c.K

theorem CfgOk.gid_mk {c : ProjCfg} (h : CfgOk c) {g l : ℕ} (hl : l < c.K) : c.gid (g * c.K + l) = g := by
  unfold ProjCfg.gid
  rw [Nat.add_comm, Nat.add_mul_div_right _ _ h.K_pos, Nat.div_eq_of_lt hl, Nat.zero_add]

theorem CfgOk.lid_mk {c : ProjCfg} (h : CfgOk c) {g l : ℕ} (hl : l < c.K) : c.lid (g * c.K + l) = l := by
  unfold ProjCfg.lid
  rw [Nat.add_comm, Nat.add_mul_mod_self_right, Nat.mod_eq_of_lt hl]

theorem CfgOk.mk_lt {c : ProjCfg} (h : CfgOk c) {g l : ℕ} (hg : g < c.G) (hl : l < c.K) :
    g * c.K + l < c.B := by
  rw [← h.B_eq]; exact sh_mul_add_lt hl hg

theorem CfgOk.rounded_eq {c : ProjCfg} (h : CfgOk c) (n : ℕ) : c.rounded n = (n / c.G + 1) * c.G := by
  unfold ProjCfg.rounded
  have h1 := Nat.div_add_mod n c.G
  have h2 := Nat.mod_lt n h.G_pos
  have h3 : (n / c.G + 1) * c.G = c.G * (n / c.G) + c.G := by ring
  omega

theorem CfgOk.acc_lt {c : ProjCfg} {f t : ℕ} (hf : f < c.gf) (ht : t < c.B) : f * c.B + t < c.featPtr := by
  unfold ProjCfg.featPtr
  rw [Nat.mul_comm c.B]
  exact sh_mul_add_lt ht hf

section
variable {α : Type*} [Zero α] [Add α] [Sub α] [Mul α]

theorem CfgOk.passes_eq {c : ProjCfg} (h : CfgOk c) (I : ProjIn α) (it : ℕ) :
    I.passes c it = (I.hi c it - I.lo c it) / c.G + 1 := by
  unfold ProjIn.passes
  rw [h.rounded_eq, Nat.mul_div_cancel _ h.G_pos]

theorem CfgOk.passes_mul {c : ProjCfg} (h : CfgOk c) (I : ProjIn α) (it : ℕ) :
    I.hi c it - I.lo c it ≤ I.passes c it * c.G := by
  rw [h.passes_eq]
  have h1 := Nat.div_add_mod (I.hi c it - I.lo c it) c.G
  have h2 := Nat.mod_lt (I.hi c it - I.lo c it) h.G_pos
  have h3 : ((I.hi c it - I.lo c it) / c.G + 1) * c.G = c.G * ((I.hi c it - I.lo c it) / c.G) + c.G := by ring
  omega

/-! ### forward kernel: one iteration -/

/-- The weight of thread `t` in pass `k`. -/
def wtV (I : ProjIn α) (c : ProjCfg) (it k t : ℕ) : α :=
  if I.pos c it k t < I.hi c it then I.basis (I.pos c it k t * c.K + c.lid t) else 0

/-- The feature `f` of group `g` in pass `k`. -/
def ftV (I : ProjIn α) (c : ProjCfg) (it k g f : ℕ) : α :=
  if g + k * c.G + I.lo c it < I.hi c it then
    I.feats ((I.nb (g + k * c.G + I.lo c it)).1 * I.nf + I.off c it + f) else 0

open ProjAddr

/-- Accumulators after `k` passes. -/
def AccAt (I : ProjIn α) (c : ProjCfg) (it k : ℕ) (m : ProjAddr → α) : Prop :=
  ∀ t < c.B, ∀ f < c.gf, m (sh (f * c.B + t)) =
    (List.range k).foldl (fun a k' => a + ftV I c it k' (c.gid t) f * wtV I c it k' t) 0

/-- Weights and features of pass `k` are loaded. -/
def Loaded (I : ProjIn α) (c : ProjCfg) (it k : ℕ) (m : ProjAddr → α) : Prop :=
  (∀ t < c.B, m (reg t 0) = wtV I c it k t) ∧
  ∀ g < c.G, ∀ f < c.gf, m (sh (c.featPtr + (g * c.gf + f))) = ftV I c it k g f

/-- Footprint of a thread while loading. -/
def loadFoot (c : ProjCfg) (t : ℕ) : Set ProjAddr :=
  { a | t < c.B ∧ ((∃ f < c.gf, a = sh (f * c.B + t)) ∨ (∃ r, a = reg t r) ∨
    (c.lid t < c.gf ∧ a = sh (c.featPtr + (c.gid t * c.gf + c.lid t)))) }

theorem loadFoot_disj {c : ProjCfg} (h : CfgOk c) (t t' : ℕ) (hne : t ≠ t') (a : ProjAddr)
    (ha : a ∈ loadFoot c t) : a ∉ loadFoot c t' := by
  rintro ⟨ht', hb⟩
  obtain ⟨ht, ha⟩ := ha
  rcases ha with ⟨f, hf, rfl⟩ | ⟨r, rfl⟩ | ⟨hl, rfl⟩
  · rcases hb with ⟨f', hf', e⟩ | ⟨r, e⟩ | ⟨hl', e⟩
    · exact hne (sh_mul_add_inj ht ht' (sh.inj e)).2
    · cases e
    · have := CfgOk.acc_lt hf ht
      have := sh.inj e
      omega
  · rcases hb with ⟨f', hf', e⟩ | ⟨r', e⟩ | ⟨hl', e⟩
    · cases e
    · exact hne (reg.inj e).1
    · cases e
  · rcases hb with ⟨f', hf', e⟩ | ⟨r', e⟩ | ⟨hl', e⟩
    · have := CfgOk.acc_lt hf' ht'
      have := sh.inj e
      omega
    · cases e
    · have e := sh.inj e
      have e2 : c.gid t * c.gf + c.lid t = c.gid t' * c.gf + c.lid t' := by omega
      obtain ⟨e3, e4⟩ := sh_mul_add_inj hl hl' e2
      apply hne
      rw [← c.gid_lid t, ← c.gid_lid t', e3, e4]

theorem projInit_run {c : ProjCfg} (h : CfgOk c) {t : ℕ} (ht : t < c.B) (m : ProjAddr → α) :
    (∀ f < c.gf, (runB m (projInit c t)).1 (sh (f * c.B + t)) = 0) ∧
    (∀ a, (∀ f < c.gf, a ≠ sh (f * c.B + t)) → (runB m (projInit c t)).1 a = m a) ∧
    (runB m (projInit c t)).2 = [] := by
  obtain ⟨h1, h2, h3⟩ := runB_sets (E := ℕ × α) (List.range c.gf) List.nodup_range (fun f => sh (f * c.B + t))
    (fun _ _ => (0 : α)) (fun i _ j _ e => (sh_mul_add_inj ht ht (sh.inj e)).1) (fun _ _ _ _ _ => rfl) m
  refine ⟨fun f hf => h1 f (List.mem_range.mpr hf), fun a ha => h2 a (fun i hi => ha i (List.mem_range.mp hi)), h3⟩

theorem projLoad_run (I : ProjIn α) {c : ProjCfg} (h : CfgOk c) (it k : ℕ) {t : ℕ} (ht : t < c.B)
    (m : ProjAddr → α) :
    (runB m (projLoad I c it k t)).1 (reg t 0) = wtV I c it k t ∧
    (c.lid t < c.gf → (runB m (projLoad I c it k t)).1 (sh (c.featPtr + (c.gid t * c.gf + c.lid t))) =
      ftV I c it k (c.gid t) (c.lid t)) ∧
    (∀ a, a ≠ reg t 0 → a ≠ sh (c.featPtr + (c.gid t * c.gf + c.lid t)) →
      (runB m (projLoad I c it k t)).1 a = m a) ∧
    (runB m (projLoad I c it k t)).2 = [] := by
  have hp : c.gid t + k * c.G + I.lo c it = I.pos c it k t := rfl
  unfold projLoad wtV ftV
  rw [hp]
  dsimp only
  by_cases hj : I.pos c it k t < I.hi c it
  · simp only [if_pos hj]
    by_cases hl : c.lid t < c.gf
    · simp only [if_pos hl]
      refine ⟨?_, ?_, ?_, ?_⟩
      · simp [runB, setB, Function.update]
      · intro _; simp [runB, setB, Function.update]
      · intro a h1 h2; simp [runB, setB, Function.update, h1, h2]
      · simp [runB, setB]
    · simp only [if_neg hl]
      refine ⟨?_, ?_, ?_, ?_⟩
      · simp [runB, setB, Function.update]
      · intro h; exact absurd h hl
      · intro a h1 h2; simp [runB, setB, Function.update, h1]
      · simp [runB, setB]
  · simp only [if_neg hj]
    by_cases hl : c.lid t < c.gf
    · simp only [if_pos hl]
      refine ⟨?_, ?_, ?_, ?_⟩
      · simp [runB, setB, Function.update]
      · intro _; simp [runB, setB, Function.update]
      · intro a h1 h2; simp [runB, setB, Function.update, h1, h2]
      · simp [runB, setB]
    · simp only [if_neg hl]
      refine ⟨?_, ?_, ?_, ?_⟩
      · simp [runB, setB, Function.update]
      · intro h; exact absurd h hl
      · intro a h1 h2; simp [runB, setB, Function.update, h1]
      · simp [runB, setB]

theorem projInit_local {c : ProjCfg} {t : ℕ} (ht : t < c.B) :
    ∀ act ∈ (projInit c t : List (ProjAct α)), LocalB ∅ (loadFoot c t) act := by
  intro act hact
  obtain ⟨f, hf, rfl⟩ := List.mem_map.mp hact
  exact LocalB.setB ⟨ht, Or.inl ⟨f, List.mem_range.mp hf, rfl⟩⟩ (fun _ _ _ => rfl)

theorem projLoad_local (I : ProjIn α) {c : ProjCfg} (it k : ℕ) {t : ℕ} (ht : t < c.B) :
    ∀ act ∈ projLoad I c it k t, LocalB ∅ (loadFoot c t) act := by
  intro act hact
  have h1 : ∀ v : α, LocalB ∅ (loadFoot c t) (setB (reg t 0) (fun _ => v) : ProjAct α) := fun v =>
    LocalB.setB ⟨ht, Or.inr (Or.inl ⟨0, rfl⟩)⟩ (fun _ _ _ => rfl)
  have h2 : ∀ v : α, c.lid t < c.gf → LocalB ∅ (loadFoot c t)
      (setB (sh (c.featPtr + (c.gid t * c.gf + c.lid t))) (fun _ => v) : ProjAct α) := fun v hl =>
    LocalB.setB ⟨ht, Or.inr (Or.inr ⟨hl, rfl⟩)⟩ (fun _ _ _ => rfl)
  unfold projLoad at hact
  dsimp only at hact
  split_ifs at hact with hj hl hl
  · rcases List.mem_cons.mp hact with rfl | hact
    · exact h1 _
    · rw [List.mem_singleton] at hact; subst hact; exact h2 _ hl
  · rcases List.mem_cons.mp hact with rfl | hact
    · exact h1 _
    · cases hact
  · rcases List.mem_cons.mp hact with rfl | hact
    · exact h1 _
    · rw [List.mem_singleton] at hact; subst hact; exact h2 _ hl
  · rcases List.mem_cons.mp hact with rfl | hact
    · exact h1 _
    · cases hact

/-- The loading phase of pass `k`. -/
theorem loadPhase (I : ProjIn α) {c : ProjCfg} (h : CfgOk c) (it k : ℕ) {tr : List (ProjAct α)}
    (hi : Interleave (projThreads c (fun t => (if k = 0 then projInit c t else []) ++ projLoad I c it k t)) tr)
    (m : ProjAddr → α) (hm : k = 0 ∨ AccAt I c it k m) :
    AccAt I c it k (runB m tr).1 ∧ Loaded I c it k (runB m tr).1 ∧ (runB m tr).2 = [] := by
  set prog : ℕ → List (ProjAct α) := fun t => (if k = 0 then projInit c t else []) ++ projLoad I c it k t
  obtain ⟨h1, h2, h3⟩ := phase_localB hi ∅ (loadFoot c) (fun t a ha => absurd ha (Set.notMem_empty a))
    (loadFoot_disj h) (by
      intro t ht act hact
      rcases List.mem_append.mp hact with hact | hact
      · split_ifs at hact
        · exact projInit_local ht act hact
        · cases hact
      · exact projLoad_local I it k ht act hact) m
  -- what one thread does
  have key : ∀ t < c.B, (runB m (prog t)).1 (reg t 0) = wtV I c it k t ∧
      (c.lid t < c.gf → (runB m (prog t)).1 (sh (c.featPtr + (c.gid t * c.gf + c.lid t))) =
        ftV I c it k (c.gid t) (c.lid t)) ∧
      (∀ f < c.gf, (runB m (prog t)).1 (sh (f * c.B + t)) = if k = 0 then 0 else m (sh (f * c.B + t))) ∧
      (runB m (prog t)).2 = [] := by
    intro t ht
    simp only [prog, runB_append]
    obtain ⟨l1, l2, l3, l4⟩ := projLoad_run I h it k ht (runB m (if k = 0 then projInit c t else [])).1
    refine ⟨l1, l2, ?_, ?_⟩
    · intro f hf
      rw [l3 _ (by simp) (by
        intro e
        have := sh.inj e
        have := CfgOk.acc_lt hf ht
        omega)]
      by_cases hk : k = 0
      · rw [if_pos hk, if_pos hk]
        exact (projInit_run h ht m).1 f hf
      · rw [if_neg hk, if_neg hk]; rfl
    · rw [l4, List.append_nil]
      by_cases hk : k = 0
      · rw [if_pos hk]; exact (projInit_run h ht m).2.2
      · rw [if_neg hk]; rfl
  refine ⟨?_, ⟨?_, ?_⟩, ?_⟩
  · intro t ht f hf
    rw [h1 t ht _ ⟨ht, Or.inl ⟨f, hf, rfl⟩⟩, (key t ht).2.2.1 f hf]
    by_cases hk : k = 0
    · subst hk; simp
    · rw [if_neg hk]
      rcases hm with hm | hm
      · exact absurd hm hk
      · exact hm t ht f hf
  · intro t ht
    rw [h1 t ht _ ⟨ht, Or.inr (Or.inl ⟨0, rfl⟩)⟩]
    exact (key t ht).1
  · intro g hg f hf
    have hfK : f < c.K := lt_of_lt_of_le hf h.gf_le
    have ht := h.mk_lt hg hfK
    have e1 := h.gid_mk (g := g) hfK
    have e2 := h.lid_mk (g := g) hfK
    have := (key _ ht).2.1 (by rw [e2]; exact hf)
    rw [e1, e2] at this
    rw [← this]
    refine h1 _ ht _ ⟨ht, Or.inr (Or.inr ⟨by rw [e2]; exact hf, by rw [e1, e2]⟩)⟩
  · have : (List.range c.B).flatMap (fun t => (runB m (prog t)).2) = [] := by
      rw [List.flatMap_eq_nil_iff]
      intro t ht
      exact (key t (List.mem_range.mp ht)).2.2.2
    rw [this] at h3
    exact List.perm_nil.mp h3

/-- Footprint while accumulating. -/
def accFoot (c : ProjCfg) (t : ℕ) : Set ProjAddr :=
  { a | t < c.B ∧ ((∃ f < c.gf, a = sh (f * c.B + t)) ∨ (∃ r, a = reg t r)) }

/-- The part of shared memory that is only read while accumulating. -/
def featSet (c : ProjCfg) : Set ProjAddr := { a | ∃ i, a = sh (c.featPtr + i) }

theorem accFoot_disj {c : ProjCfg} (t t' : ℕ) (hne : t ≠ t') (a : ProjAddr)
    (ha : a ∈ accFoot c t) : a ∉ accFoot c t' := by
  rintro ⟨ht', hb⟩
  obtain ⟨ht, ha⟩ := ha
  rcases ha with ⟨f, hf, rfl⟩ | ⟨r, rfl⟩
  · rcases hb with ⟨f', hf', e⟩ | ⟨r, e⟩
    · exact hne (sh_mul_add_inj ht ht' (sh.inj e)).2
    · cases e
  · rcases hb with ⟨f', hf', e⟩ | ⟨r', e⟩
    · cases e
    · exact hne (reg.inj e).1

theorem featSet_acc {c : ProjCfg} (t : ℕ) (a : ProjAddr) (ha : a ∈ featSet c) : a ∉ accFoot c t := by
  rintro ⟨ht, hb⟩
  obtain ⟨i, rfl⟩ := ha
  rcases hb with ⟨f', hf', e⟩ | ⟨r', e⟩
  · have := CfgOk.acc_lt hf' ht
    have := sh.inj e
    omega
  · cases e

/-- The accumulation phase of pass `k`. -/
theorem accPhase (I : ProjIn α) {c : ProjCfg} (h : CfgOk c) (it k : ℕ) {tr : List (ProjAct α)}
    (hi : Interleave (projThreads c (projAcc c)) tr) (m : ProjAddr → α) (hm : AccAt I c it k m)
    (hl : Loaded I c it k m) :
    AccAt I c it (k + 1) (runB m tr).1 ∧ (runB m tr).2 = [] := by
  obtain ⟨h1, h2, h3⟩ := phase_localB hi (featSet c) (accFoot c) featSet_acc accFoot_disj (by
      intro t ht act hact
      obtain ⟨f, hf, rfl⟩ := List.mem_map.mp hact
      refine LocalB.setB ⟨ht, Or.inl ⟨f, List.mem_range.mp hf, rfl⟩⟩ ?_
      intro m m' hmm
      rw [hmm _ (Or.inl ⟨ht, Or.inl ⟨f, List.mem_range.mp hf, rfl⟩⟩), hmm _ (Or.inr ⟨_, rfl⟩),
        hmm (reg t 0) (Or.inl ⟨ht, Or.inr ⟨0, rfl⟩⟩)]) m
  have key : ∀ t < c.B, (∀ f < c.gf, (runB m (projAcc c t)).1 (sh (f * c.B + t)) =
        m (sh (f * c.B + t)) + m (sh (c.featPtr + (c.gid t * c.gf + f))) * m (reg t 0)) ∧
      (runB m (projAcc c t)).2 = [] := by
    intro t ht
    obtain ⟨k1, _, k3⟩ := runB_sets (E := ℕ × α) (List.range c.gf) List.nodup_range (fun f => sh (f * c.B + t))
      (fun f (m : ProjAddr → α) => m (sh (f * c.B + t)) + m (sh (c.featPtr + (c.gid t * c.gf + f))) * m (reg t 0))
      (fun i _ j _ e => (sh_mul_add_inj ht ht (sh.inj e)).1) (by
        intro i hi m m' hmm
        rw [hmm (sh (i * c.B + t)) (fun j hj hji e => hji (sh_mul_add_inj ht ht (sh.inj e)).1),
          hmm (sh (c.featPtr + (c.gid t * c.gf + i))) (fun j hj hji e => by
            have := CfgOk.acc_lt (List.mem_range.mp hj) ht
            have := sh.inj e
            omega),
          hmm (reg t 0) (fun j hj hji e => by cases e)]) m
    exact ⟨fun f hf => k1 f (List.mem_range.mpr hf), k3⟩
  refine ⟨?_, ?_⟩
  · intro t ht f hf
    rw [h1 t ht _ ⟨ht, Or.inl ⟨f, hf, rfl⟩⟩, (key t ht).1 f hf, hm t ht f hf, hl.1 t ht,
      hl.2 _ (h.gid_lt ht) f hf, List.range_succ, List.foldl_append]
    rfl
  · have : (List.range c.B).flatMap (fun t => (runB m (projAcc c t)).2) = [] := by
      rw [List.flatMap_eq_nil_iff]
      intro t ht
      exact (key t (List.mem_range.mp ht)).2
    rw [this] at h3
    exact List.perm_nil.mp h3

theorem Phased.nil_inv {β : Type*} {p : List β} (h : Phased [] p) : p = [] := by
  cases h; rfl

/-- All passes of the loop over the neighbours. -/
theorem passes_run (I : ProjIn α) {c : ProjCfg} (h : CfgOk c) (it : ℕ) (n : ℕ) :
    ∀ (p : List (ProjAct α)), Phased ((List.range n).flatMap (fun k =>
      [projThreads c (fun t => (if k = 0 then projInit c t else []) ++ projLoad I c it k t),
       projThreads c (projAcc c)])) p → ∀ m : ProjAddr → α,
      (0 < n → AccAt I c it n (runB m p).1) ∧ (runB m p).2 = [] := by
  induction n with
  | zero =>
    intro p hp m
    rw [List.range_zero, List.flatMap_nil] at hp
    rw [hp.nil_inv]
    exact ⟨fun h => absurd h (lt_irrefl _), rfl⟩
  | succ n ih =>
    intro p hp m
    rw [List.range_succ, List.flatMap_append, List.flatMap_singleton] at hp
    obtain ⟨p1, p2, rfl, hp1, hp2⟩ := hp.append_inv
    obtain ⟨a1, a2⟩ := ih p1 hp1 m
    cases hp2 with
    | @cons _ _ t1 t2 hx next =>
      have hy := next.single_inv
      obtain ⟨b1, b2, b3⟩ := loadPhase I h it n hx (runB m p1).1 (by
        rcases Nat.eq_zero_or_pos n with h0 | h0
        · exact Or.inl h0
        · exact Or.inr (a1 h0))
      obtain ⟨c1, c2⟩ := accPhase I h it n hy _ b1 b2
      rw [runB_append, runB_append, a2, b3, c2]
      exact ⟨fun _ => c1, rfl⟩

/-- Sums over the groups, register program. -/
theorem sumRegs_run {c : ProjCfg} (t : ℕ) (l : List ℕ) (addr : ℕ → ℕ) (m : ProjAddr → α) :
    (runB m (l.map (fun g => (setB (reg t 1) (fun m => m (reg t 1) + m (sh (addr g))) : ProjAct α)))).1 (reg t 1) =
      l.foldl (fun a g => a + m (sh (addr g))) (m (reg t 1)) ∧
    (∀ a, a ≠ reg t 1 → (runB m (l.map (fun g => (setB (reg t 1)
      (fun m => m (reg t 1) + m (sh (addr g))) : ProjAct α)))).1 a = m a) ∧
    (runB m (l.map (fun g => (setB (reg t 1) (fun m => m (reg t 1) + m (sh (addr g))) : ProjAct α)))).2 = [] := by
  induction l generalizing m with
  | nil => simp [runB]
  | cons g l ih =>
    obtain ⟨h1, h2, h3⟩ := ih (Function.update m (reg t 1) (m (reg t 1) + m (sh (addr g))))
    have e : runB m ((g :: l).map (fun g => (setB (reg t 1) (fun m => m (reg t 1) + m (sh (addr g))) : ProjAct α))) =
        runB (Function.update m (reg t 1) (m (reg t 1) + m (sh (addr g))))
          (l.map (fun g => (setB (reg t 1) (fun m => m (reg t 1) + m (sh (addr g))) : ProjAct α))) := by
      simp [runB, setB]
    rw [e]
    refine ⟨?_, ?_, h3⟩
    · rw [h1, Function.update_self, List.foldl_cons]
      rfl
    · intro a ha
      rw [h2 a ha, Function.update_of_ne ha]

/-- The output phase. -/
theorem savePhase (I : ProjIn α) {c : ProjCfg} (h : CfgOk c) (it : ℕ) {tr : List (ProjAct α)}
    (hi : Interleave (projThreads c (projSave I c it)) tr) (m : ProjAddr → α) :
    (runB m tr).2.Perm ((List.range c.K).flatMap (fun t => (List.range c.gf).map (fun f =>
      (I.sample c it * I.nf * c.K + (I.off c it + f) * c.K + t,
        (List.range c.G).foldl (fun a g => a + m (sh (f * c.B + (g * c.K + t)))) 0)))) := by
  obtain ⟨h1, h2, h3⟩ := phase_localB hi { a | ∃ i, a = sh i } (fun t => { a | ∃ r, a = reg t r })
    (by rintro t a ⟨i, rfl⟩ ⟨r, e⟩; cases e)
    (by rintro t t' hne a ⟨r, rfl⟩ ⟨r', e⟩; exact hne (reg.inj e).1) (by
      intro t ht act hact
      unfold projSave at hact
      split_ifs at hact with htk
      · obtain ⟨f, hf, hact⟩ := List.mem_flatMap.mp hact
        simp only [List.cons_append, List.mem_cons, List.mem_append, List.mem_map, List.not_mem_nil, or_false] at hact
        rcases hact with rfl | ⟨g, hg, rfl⟩ | rfl
        · exact LocalB.setB ⟨1, rfl⟩ (fun _ _ _ => rfl)
        · refine LocalB.setB ⟨1, rfl⟩ ?_
          intro m m' hmm
          rw [hmm _ (Or.inl ⟨1, rfl⟩), hmm _ (Or.inr ⟨_, rfl⟩)]
        · refine LocalB.emitB ?_
          intro m m' hmm
          rw [hmm _ (Or.inl ⟨1, rfl⟩)]
      · cases hact) m
  refine h3.trans ?_
  -- only the first `K` threads have effects
  have hsplit : List.range c.B = List.range c.K ++ (List.range (c.B - c.K)).map (fun i => c.K + i) := by
    rw [← List.range_add]
    congr 1
    have := Nat.le_of_dvd h.B_pos h.dvd
    omega
  rw [hsplit, List.flatMap_append]
  have hz : ((List.range (c.B - c.K)).map (fun i => c.K + i)).flatMap
      (fun t => (runB m (projSave I c it t)).2) = [] := by
    rw [List.flatMap_eq_nil_iff]
    intro t ht
    obtain ⟨i, _, rfl⟩ := List.mem_map.mp ht
    unfold projSave
    rw [if_neg (by omega)]
    rfl
  rw [hz, List.append_nil]
  refine List.Perm.of_eq ?_
  rw [List.flatMap_def, List.flatMap_def]
  congr 1
  refine List.map_congr_left (fun t ht => ?_)
  rw [List.mem_range] at ht
  unfold projSave
  rw [if_pos ht]
  have hlid : c.lid t = t := Nat.mod_eq_of_lt ht
  generalize List.range c.gf = l
  have : ∀ m' : ProjAddr → α, (∀ i, m' (sh i) = m (sh i)) →
      (runB m' (l.flatMap (fun f => setB (reg t 1) (fun _ => 0) ::
        (List.range c.G).map (fun g => setB (reg t 1)
          (fun m => m (reg t 1) + m (sh (f * c.B + c.lid t + g * c.K)))) ++
        [(emitB (fun m => (I.sample c it * I.nf * c.K + (I.off c it + f) * c.K + c.lid t, m (reg t 1))) :
          ProjAct α)]))).2 =
      l.map (fun f => (I.sample c it * I.nf * c.K + (I.off c it + f) * c.K + t,
        (List.range c.G).foldl (fun a g => a + m (sh (f * c.B + (g * c.K + t)))) 0)) := by
    induction l with
    | nil => intro m' _; rfl
    | cons f l ih =>
      intro m' hm'
      rw [List.flatMap_cons, runB_append]
      obtain ⟨s1, s2, s3⟩ := sumRegs_run (c := c) t (List.range c.G) (fun g => f * c.B + c.lid t + g * c.K)
        (Function.update m' (reg t 1) 0)
      have e : runB m' (setB (reg t 1) (fun _ => 0) ::
          (List.range c.G).map (fun g => setB (reg t 1)
            (fun m => m (reg t 1) + m (sh (f * c.B + c.lid t + g * c.K)))) ++
          [(emitB (fun m => (I.sample c it * I.nf * c.K + (I.off c it + f) * c.K + c.lid t, m (reg t 1))) :
            ProjAct α)]) =
          ((runB (Function.update m' (reg t 1) 0) ((List.range c.G).map (fun g => (setB (reg t 1)
            (fun m => m (reg t 1) + m (sh (f * c.B + c.lid t + g * c.K))) : ProjAct α)))).1,
          [(I.sample c it * I.nf * c.K + (I.off c it + f) * c.K + t,
            (List.range c.G).foldl (fun a g => a + m (sh (f * c.B + (g * c.K + t)))) 0)]) := by
        rw [List.cons_append]
        simp only [runB, setB, List.nil_append]
        rw [runB_append, s3, List.nil_append]
        simp only [runB, emitB, List.append_nil]
        rw [s1, Function.update_self, hlid]
        congr 3
        refine foldl_congr_mem _ _ _ (fun a g _ => ?_) _
        rw [Function.update_of_ne (by simp), hm']
        congr 3
        omega
      rw [e]
      simp only
      rw [ih _ (by
        intro i
        rw [s2 _ (by simp), Function.update_of_ne (by simp), hm']), List.map_cons]
      rfl
  exact this m (fun _ => rfl)

/-- The value written for sample and features of iteration `it`, feature `f` of the group and basis function `t`: the
sums of the groups, added up. -/
def projValA (I : ProjIn α) (c : ProjCfg) (it f t : ℕ) : α :=
  (List.range c.G).foldl (fun a g => a + (List.range (I.passes c it)).foldl (fun a k =>
    a + ftV I c it k g f * wtV I c it k (g * c.K + t)) 0) 0

/-- The writes of one iteration of the outer loop. -/
def projWritesA (I : ProjIn α) (c : ProjCfg) (it : ℕ) : List (ℕ × α) :=
  (List.range c.K).flatMap (fun t => (List.range c.gf).map (fun f =>
    (I.sample c it * I.nf * c.K + (I.off c it + f) * c.K + t, projValA I c it f t)))

/-- **One iteration of the outer loop**, in any schedule and from any contents of
the block memory, in any arithmetic. -/
theorem projPhases_runA (I : ProjIn α) {c : ProjCfg} (h : CfgOk c) (it : ℕ) (p : List (ProjAct α))
    (hp : Phased (projPhases I c it) p) (m : ProjAddr → α) : (runB m p).2.Perm (projWritesA I c it) := by
  obtain ⟨p1, p2, rfl, hp1, hp2⟩ := hp.append_inv
  obtain ⟨a1, a2⟩ := passes_run I h it _ p1 hp1 m
  have hpos : 0 < I.passes c it := by rw [h.passes_eq]; exact Nat.succ_pos _
  have hacc := a1 hpos
  have hs := savePhase I h it hp2.single_inv (runB m p1).1
  rw [runB_append, a2, List.nil_append]
  refine hs.trans (List.Perm.of_eq ?_)
  unfold projWritesA projValA
  rw [List.flatMap_def, List.flatMap_def]
  congr 1
  refine List.map_congr_left (fun t ht => ?_)
  rw [List.mem_range] at ht
  refine List.map_congr_left (fun f hf => ?_)
  rw [List.mem_range] at hf
  congr 1
  refine foldl_congr_mem _ _ _ (fun a g hg => ?_) _
  rw [List.mem_range] at hg
  rw [hacc _ (h.mk_lt hg ht) f hf, h.gid_mk ht]

end

/-! ### exact arithmetic -/

section
variable {α : Type*} [Field α]

/-- The writes of one iteration of the outer loop. -/
def projWrites (I : ProjIn α) (c : ProjCfg) (it : ℕ) : List (ℕ × α) :=
  (List.range c.K).flatMap (fun t => (List.range c.gf).map (fun f =>
    (I.sample c it * I.nf * c.K + (I.off c it + f) * c.K + t,
      ((rangeIdx I.ends (I.sample c it)).map (fun j =>
        I.feats ((I.nb j).1 * I.nf + I.off c it + f) * I.basis (j * c.K + t))).sum)))

theorem group_sum (I : ProjIn α) {c : ProjCfg} (h : CfgOk c) (it : ℕ) {f t : ℕ} (ht : t < c.K) (P : ℕ → α) :
    ∑ g ∈ Finset.range c.G, ∑ k ∈ Finset.range (I.passes c it),
      (if g + k * c.G + I.lo c it < I.hi c it then P (g + k * c.G + I.lo c it) else 0) =
    ((rangeIdx I.ends (I.sample c it)).map P).sum := by
  rw [Finset.sum_comm, ← sum_range_mul_blocks (I.passes c it) c.G
    (fun x => if x + I.lo c it < I.hi c it then P (x + I.lo c it) else 0)]
  have hle := h.passes_mul I it
  rw [show I.passes c it * c.G = (I.hi c it - I.lo c it) + (I.passes c it * c.G - (I.hi c it - I.lo c it)) by omega,
    Finset.sum_range_add]
  have hz : ∑ x ∈ Finset.range (I.passes c it * c.G - (I.hi c it - I.lo c it)),
      (if I.hi c it - I.lo c it + x + I.lo c it < I.hi c it then P (I.hi c it - I.lo c it + x + I.lo c it) else 0) = 0 := by
    refine Finset.sum_eq_zero (fun x _ => ?_)
    rw [if_neg (by omega)]
  rw [hz, add_zero]
  have e1 : rangeIdx I.ends (I.sample c it) =
      (List.range (I.hi c it - I.lo c it)).map (fun k => I.lo c it + k) := rfl
  rw [e1, List.map_map]
  have e2 : ∀ f : ℕ → α, ∀ n, ((List.range n).map f).sum = ∑ x ∈ Finset.range n, f x := fun f n => rfl
  rw [e2]
  refine Finset.sum_congr rfl (fun x hx => ?_)
  rw [Finset.mem_range] at hx
  rw [if_pos (by omega), Function.comp, Nat.add_comm]

theorem foldl_add_range (n : ℕ) (P : ℕ → α) (a : α) :
    (List.range n).foldl (fun a k => a + P k) a = a + ∑ k ∈ Finset.range n, P k := by
  induction n with
  | zero => simp
  | succ n ih => rw [List.range_succ, List.foldl_append, ih, Finset.sum_range_succ, ← add_assoc]; rfl

theorem projWritesA_eq (I : ProjIn α) {c : ProjCfg} (h : CfgOk c) (it : ℕ) : projWritesA I c it = projWrites I c it := by
  unfold projWrites projWritesA projValA
  rw [List.flatMap_def, List.flatMap_def]
  congr 1
  refine List.map_congr_left (fun t ht => ?_)
  rw [List.mem_range] at ht
  refine List.map_congr_left (fun f hf => ?_)
  rw [List.mem_range] at hf
  congr 1
  rw [← group_sum I h it (f := f) ht (fun j => I.feats ((I.nb j).1 * I.nf + I.off c it + f) * I.basis (j * c.K + t))]
  simp only [foldl_add_range, zero_add]
  refine Finset.sum_congr rfl (fun g hg => Finset.sum_congr rfl (fun k _ => ?_))
  unfold ftV wtV ProjIn.pos
  rw [h.gid_mk ht, h.lid_mk ht]
  split_ifs
  · rfl
  · rw [zero_mul]

/-- One iteration of the outer loop in exact arithmetic. -/
theorem projPhases_run (I : ProjIn α) {c : ProjCfg} (h : CfgOk c) (it : ℕ) (p : List (ProjAct α))
    (hp : Phased (projPhases I c it) p) (m : ProjAddr → α) : (runB m p).2.Perm (projWrites I c it) := by
  rw [← projWritesA_eq I h]
  exact projPhases_runA I h it p hp m

end
end PC
