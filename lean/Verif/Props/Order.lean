import Verif.Props.Move
import Verif.HeadGrad

/-!
# Property C165: the order of the shapes in a batch and of their points, in training
-/

set_option linter.unusedVariables false
set_option linter.unusedSectionVars false

namespace PC
noncomputable section
variable {k D : ℕ}

/-- Specification: the cloud `c'` has the points of `c` in another order, those of
element `b` as points of element `σ b`. -/
structure SameBatch (c c' : Cloud (Fin D → ℝ)) (σ : Equiv.Perm ℕ) where
  e : Fin c.n ≃ Fin c'.n
  pts : ∀ p, c'.pts (e p) = c.pts p
  batch : ∀ p, c'.batch (e p) = σ (c.batch p)

variable {σ : Equiv.Perm ℕ}

/-- One element. -/
def SameBatch.elem {c c' : Cloud (Fin D → ℝ)} (s : SameBatch c c' σ) (b : ℕ) : SameElem c c' b (σ b) :=
  ⟨s.e.subtypeEquiv (fun p => by rw [s.batch]; exact σ.injective.eq_iff.symm), fun p => s.pts p⟩

/-- All elements together. -/
def SameBatch.ofElems {c c' : Cloud (Fin D → ℝ)} (s : ∀ b, SameElem c c' b (σ b)) : SameBatch c c' σ where
  e := (Equiv.sigmaFiberEquiv c.batch).symm.trans
    ((Equiv.sigmaCongr σ (fun b => (s b).e)).trans (Equiv.sigmaFiberEquiv c'.batch))
  pts := fun p => by exact (s (c.batch p)).pts ⟨p, rfl⟩
  batch := fun p => by exact ((s (c.batch p)).e ⟨p, rfl⟩).2

theorem SameBatch.ofElems_e {c c' : Cloud (Fin D → ℝ)} (s : ∀ b, SameElem c c' b (σ b)) (p : Fin c.n) :
    (SameBatch.ofElems s).e p = ((s (c.batch p)).e ⟨p, rfl⟩).1 := rfl

theorem bn_equiv (tr : Bool) (bn : BNorm) {n n' : ℕ} (e : Fin n ≃ Fin n') {f : Fin n → ℕ → ℝ} {f' : Fin n' → ℕ → ℝ}
    (hf : ∀ i, f' (e i) = f i) (i : Fin n) : bn.apply tr f' (e i) = bn.apply tr f i := by
  obtain rfl : n = n' := Fin.equiv_iff_eq.1 ⟨e⟩
  have hs : ∀ (φ : ℝ → ℝ) ch, ∑ j, φ (f' j ch) = ∑ j, φ (f j ch) := by
    intro φ ch
    rw [← Equiv.sum_comp e]
    exact Finset.sum_congr rfl fun j _ => by rw [hf]
  funext ch
  have h1 := hs id ch
  simp only [id] at h1
  unfold BNorm.apply
  dsimp only
  rw [hf, h1]
  have h2 := hs (fun x => (x - if tr = true then (∑ j, f j ch) / (n : ℝ) else bn.mean ch) ^ 2) ch
  rw [h2]

theorem bnAct_equiv (E : NetEnv) (bn : BNorm) {n n' : ℕ} (e : Fin n ≃ Fin n') {f : Fin n → ℕ → ℝ} {f' : Fin n' → ℕ → ℝ}
    (hf : ∀ i, f' (e i) = f i) (i : Fin n) : E.bnAct bn f' (e i) = E.bnAct bn f i := by
  funext ch
  exact congrArg E.lrelu (congrFun (bn_equiv E.training bn e hf i) ch)

theorem lin_equiv (l : Lin) {n n' : ℕ} (e : Fin n ≃ Fin n') {f : Fin n → ℕ → ℝ} {f' : Fin n' → ℕ → ℝ}
    (hf : ∀ i, f' (e i) = f i) (i : Fin n) : l.apply f' (e i) = l.apply f i := by
  funext ch
  simp only [Lin.apply, conv1x1, hf]

theorem call_batch (E : NetEnv) {L : NetConv (k + 2)} (hL : L.Ok) {cin cin' cout cout' : Cloud (Fin (k + 2) → ℝ)}
    (s : SameBatch cin cin' σ) (t : SameBatch cout cout' σ) {radius : ℝ} (hr : 0 < radius)
    (heps : 0 < E.eps) (hv : cin.Valid) (hv' : cin'.Valid) {f : Fin cin.n → ℕ → ℝ} {f' : Fin cin'.n → ℕ → ℝ}
    (hf : ∀ p, f' (s.e p) = f p) {g : Fin cout.n → ℕ → ℝ} {g' : Fin cout'.n → ℕ → ℝ}
    (h : L.call E cin cout radius f = .ok g) (h' : L.call E cin' cout' radius f' = .ok g') (p : Fin cout.n) :
    g' (t.e p) = g p :=
  NetConv.call_elem E hL (s.elem (cout.batch p)) (t.elem (cout.batch p)) hr heps hv hv' (fun q => hf q) h h' ⟨p, rfl⟩

theorem run_batch (E : NetEnv) {B : NetBlock (k + 2)} (hL : B.conv.Ok)
    {cin cin' cout cout' : Cloud (Fin (k + 2) → ℝ)} (s : SameBatch cin cin' σ) (t : SameBatch cout cout' σ)
    {radius : ℝ} (hr : 0 < radius) (heps : 0 < E.eps) (hv : cin.Valid) (hv' : cin'.Valid) {pr : RadiusArg ℝ}
    {f : Fin cin.n → ℕ → ℝ} {f' : Fin cin'.n → ℕ → ℝ} (hf : ∀ p, f' (s.e p) = f p)
    (hp : ∀ x x', B.pool E cin cout pr f = .ok x → B.pool E cin' cout' pr f' = .ok x' → ∀ p, x' (t.e p) = x p)
    {g : Fin cout.n → ℕ → ℝ} {g' : Fin cout'.n → ℕ → ℝ}
    (h : B.run E cin cout radius pr f = .ok g) (h' : B.run E cin' cout' radius pr f' = .ok g') (p : Fin cout.n) :
    g' (t.e p) = g p := by
  unfold NetBlock.run at h h'
  split at h
  · cases h
  rename_i r hr1
  split at h
  · cases h
  rename_i x hx
  split at h'
  · cases h'
  rename_i r' hr1'
  split at h'
  · cases h'
  rename_i x' hx'
  simp only [Except.ok.injEq] at h h'
  subst h h'
  have a1 := call_batch E hL s t hr heps hv hv'
    (bnAct_equiv E B.bn1 s.e (lin_equiv B.down s.e (bnAct_equiv E B.bn0 s.e hf))) hr1 hr1'
  have a2 := lin_equiv B.up t.e (bnAct_equiv E B.bn2 t.e a1)
  have a3 := hp x x' hx hx'
  funext ch
  dsimp only
  rw [a2 p]
  congr 1
  cases B.proj with
  | none => exact congrFun (a3 p) ch
  | some q => exact congrFun (lin_equiv q.2 t.e (bnAct_equiv E q.1 t.e a3) p) ch

theorem run_batch_strided (E : NetEnv) {B : NetBlock (k + 2)} (hL : B.conv.Ok)
    (hst : B.strided = true) {cin cin' cout cout' : Cloud (Fin (k + 2) → ℝ)}
    (s : SameBatch cin cin' σ) (t : SameBatch cout cout' σ) {radius : ℝ} (hr : 0 < radius)
    (heps : 0 < E.eps) (hv : cin.Valid) (hv' : cin'.Valid)
    {f : Fin cin.n → ℕ → ℝ} {f' : Fin cin'.n → ℕ → ℝ} (hf : ∀ p, f' (s.e p) = f p)
    {g : Fin cout.n → ℕ → ℝ} {g' : Fin cout'.n → ℕ → ℝ}
    (h : B.run E cin cout radius (.vec [radius]) f = .ok g)
    (h' : B.run E cin' cout' radius (.vec [radius]) f' = .ok g') : ∀ p, g' (t.e p) = g p := by
  refine run_batch E hL s t hr heps hv hv' hf ?_ h h'
  intro x x' hx hx'
  unfold NetBlock.pool at hx hx'
  rw [if_pos hst] at hx hx'
  split at hx
  · cases hx
  rename_i o ho
  split at hx'
  · cases hx'
  rename_i o' ho'
  simp only [Except.ok.injEq] at hx hx'
  subst hx hx'
  intro p
  have := C94_local_pooling (s.elem (cout.batch p)) (t.elem (cout.batch p)) .max _ _ _ _ (.vec [radius]) (fun _ => radius) rfl
    ⟨hv, hr, fun _ => le_rfl, heps⟩ ⟨hv', hr, fun _ => le_rfl, heps⟩ f f' (fun q => hf q) o o' ho ho' ⟨p, rfl⟩
  funext ch
  have h2 : o' (t.e p) = o p := this
  dsimp only
  rw [h2]

theorem run_batch_plain (E : NetEnv) {B : NetBlock (k + 2)} (hL : B.conv.Ok)
    (hst : B.strided = false) {c c' : Cloud (Fin (k + 2) → ℝ)} (s : SameBatch c c' σ) {radius : ℝ} (hr : 0 < radius)
    (heps : 0 < E.eps) (hv : c.Valid) (hv' : c'.Valid) {pr : RadiusArg ℝ}
    {f : Fin c.n → ℕ → ℝ} {f' : Fin c'.n → ℕ → ℝ} (hf : ∀ p, f' (s.e p) = f p)
    {g : Fin c.n → ℕ → ℝ} {g' : Fin c'.n → ℕ → ℝ}
    (h : B.run E c c radius pr f = .ok g) (h' : B.run E c' c' radius pr f' = .ok g') : ∀ p, g' (s.e p) = g p := by
  refine run_batch E hL s s hr heps hv hv' hf ?_ h h'
  intro x x' hx hx'
  unfold NetBlock.pool at hx hx'
  rw [if_neg (by simp [hst]), dif_pos rfl, Except.ok.injEq] at hx hx'
  subst hx hx'
  exact hf

/-- Levels with the same points. -/
def SameLevels (σ : Equiv.Perm ℕ) (os os' : List (CloudObj (Fin (k + 2) → ℝ))) : Prop :=
  List.Forall₂ (fun o o' : CloudObj (Fin (k + 2) → ℝ) => Nonempty (SameBatch o.c o'.c σ)) os os'

theorem net40Loop_batch (E : NetEnv) (heps : 0 < E.eps) (levels : List (Level40 (k + 2)))
    (hl : ∀ l ∈ levels, l.strided.conv.Ok ∧ l.strided.strided = true ∧ l.block.conv.Ok ∧
      l.block.strided = false ∧ 0 < l.poolRadius ∧ 0 < l.convRadius) :
    ∀ (os os' : List (CloudObj (Fin (k + 2) → ℝ))) (o o' : CloudObj (Fin (k + 2) → ℝ)) (f : Fin o.c.n → ℕ → ℝ)
    (f' : Fin o'.c.n → ℕ → ℝ) (s : SameBatch o.c o'.c σ) (hf : ∀ p, f' (s.e p) = f p)
    (ho : ∀ p ∈ o :: os, p.c.Valid) (ho' : ∀ p ∈ o' :: os', p.c.Valid) (hos : SameLevels σ os os')
    (p p' : CloudObj (Fin (k + 2) → ℝ)) (g : Fin p.c.n → ℕ → ℝ) (g' : Fin p'.c.n → ℕ → ℝ)
    (h : net40Loop E o f os levels = .ok ⟨p, g⟩) (h' : net40Loop E o' f' os' levels = .ok ⟨p', g'⟩),
    ∃ t : SameBatch p.c p'.c σ, ∀ q, g' (t.e q) = g q := by
  induction levels with
  | nil =>
    intro os os' o o' f f' s hf ho ho' hos p p' g g' h h'
    cases hos with
    | nil =>
      simp only [net40Loop, Except.ok.injEq] at h h'
      cases h
      cases h'
      exact ⟨s, hf⟩
    | cons _ _ => simp [net40Loop] at h
  | cons l ls ih =>
    intro os os' o o' f f' s hf ho ho' hos p p' g g' h h'
    cases hos with
    | nil => simp [net40Loop] at h
    | @cons q q' os os' hq hos =>
      obtain ⟨t⟩ := hq
      obtain ⟨l1, l2, l3, l4, l5, l6⟩ := hl l (by simp)
      unfold net40Loop at h h'
      split at h
      · cases h
      rename_i f1 e1
      split at h
      · cases h
      rename_i f2 e2
      split at h'
      · cases h'
      rename_i f1' e1'
      split at h'
      · cases h'
      rename_i f2' e2'
      have a1 := run_batch_strided E l1 l2 s t l5 heps (ho o (by simp)) (ho' o' (by simp)) hf e1 e1'
      have a2 := run_batch_plain E l3 l4 t l6 heps (ho q (by simp)) (ho' q' (by simp)) a1 e2 e2'
      exact ih (fun l hx => hl l (by simp [hx])) os os' q q' f2 f2' t a2 (fun p hp => ho p (by simp at hp ⊢; tauto))
        (fun p hp => ho' p (by simp at hp ⊢; tauto)) hos p p' g g' h h'

theorem netSmallLoop_batch (E : NetEnv) (heps : 0 < E.eps) (N : NetSmall (k + 2))
    (hlast : N.last.Ok ∧ 0 < N.lastSampleRadius ∧ 0 < N.lastConvRadius) (levels : List (LevelSmall (k + 2)))
    (hl : ∀ l ∈ levels, l.conv.Ok ∧ 0 < l.sampleRadius ∧ 0 < l.convRadius) :
    ∀ (os os' : List (CloudObj (Fin (k + 2) → ℝ))) (o o' : CloudObj (Fin (k + 2) → ℝ)) (f : Fin o.c.n → ℕ → ℝ)
    (f' : Fin o'.c.n → ℕ → ℝ) (s : SameBatch o.c o'.c σ) (hf : ∀ p, f' (s.e p) = f p)
    (ho : ∀ p ∈ o :: os, p.c.Valid) (ho' : ∀ p ∈ o' :: os', p.c.Valid) (hos : SameLevels σ os os')
    (p p' : CloudObj (Fin (k + 2) → ℝ)) (hp : (o :: os).getLast? = some p) (hp' : (o' :: os').getLast? = some p')
    (n n' : ℕ) (g : Fin n → ℕ → ℝ) (g' : Fin n' → ℕ → ℝ)
    (h : netSmallLoop E N o f os levels = .ok ⟨n, g⟩) (h' : netSmallLoop E N o' f' os' levels = .ok ⟨n', g'⟩),
    n = p.c.n ∧ n' = p'.c.n ∧ ∃ (t : SameBatch p.c p'.c σ) (u : Fin p.c.n → ℕ → ℝ) (u' : Fin p'.c.n → ℕ → ℝ),
      (∀ q, u' (t.e q) = u q) ∧ HEq g (u ∘ p.c.sortedIndicesBatch) ∧ HEq g' (u' ∘ p'.c.sortedIndicesBatch) := by
  induction levels with
  | nil =>
    intro os os' o o' f f' s hf ho ho' hos p p' hp hp' n n' g g' h h'
    cases hos with
    | nil => simp [netSmallLoop] at h
    | @cons q q' os os' hq hos =>
      obtain ⟨t⟩ := hq
      cases hos with
      | cons _ _ => simp [netSmallLoop] at h
      | nil =>
        unfold netSmallLoop at h h'
        split at h
        · cases h
        rename_i u e1
        split at h'
        · cases h'
        rename_i u' e1'
        simp at hp hp'
        subst hp hp'
        cases h
        cases h'
        exact ⟨rfl, rfl, t, u, u', call_batch E hlast.1 s t hlast.2.2 heps (ho o (by simp)) (ho' o' (by simp)) hf e1 e1',
          HEq.rfl, HEq.rfl⟩
  | cons l ls ih =>
    intro os os' o o' f f' s hf ho ho' hos p p' hp hp' n n' g g' h h'
    cases hos with
    | nil => simp [netSmallLoop] at h
    | @cons q q' os os' hq hos =>
      obtain ⟨t⟩ := hq
      obtain ⟨l1, l2, l3⟩ := hl l (by simp)
      rw [netSmallLoop_cons] at h h'
      split at h
      · cases h
      rename_i u e1
      split at h'
      · cases h'
      rename_i u' e1'
      have a1 := call_batch E l1 s t l3 heps (ho o (by simp)) (ho' o' (by simp)) hf e1 e1'
      have a2 := bnAct_equiv E l.bn2 t.e (lin_equiv l.lin t.e (bnAct_equiv E l.bn1 t.e a1))
      rw [List.getLast?_cons_cons] at hp hp'
      exact ih (fun l hx => hl l (by simp [hx])) os os' q q' _ _ t a2 (fun p hp => ho p (by simp at hp ⊢; tauto))
        (fun p hp => ho' p (by simp at hp ⊢; tauto)) hos p p' hp hp' n n' g g' h h'

/-! ### Dropout and heads -/

/-- Other dropout layers. -/
def NetEnv.withDrops (E : NetEnv) (d1 d2 : ∀ n, (Fin n → ℕ → ℝ) → Fin n → ℕ → ℝ) : NetEnv := { E with drop1 := d1, drop2 := d2 }

theorem net40Loop_drops (E : NetEnv) (d1 d2 : ∀ n, (Fin n → ℕ → ℝ) → Fin n → ℕ → ℝ) :
    ∀ (ls : List (Level40 (k + 2))) (os : List (CloudObj (Fin (k + 2) → ℝ))) (o : CloudObj (Fin (k + 2) → ℝ))
    (f : Fin o.c.n → ℕ → ℝ), net40Loop (E.withDrops d1 d2) o f os ls = net40Loop E o f os ls
  | [], [], _, _ => rfl
  | [], _ :: _, _, _ => rfl
  | _ :: _, [], _, _ => rfl
  | l :: ls, o' :: os, o, f => by
    rw [net40Loop_cons, net40Loop_cons]
    have ih := fun f2 => net40Loop_drops E d1 d2 ls os o' f2
    simp only [ih]
    rfl

theorem netSmallLoop_drops (E : NetEnv) (d1 d2 : ∀ n, (Fin n → ℕ → ℝ) → Fin n → ℕ → ℝ) (N : NetSmall (k + 2)) :
    ∀ (ls : List (LevelSmall (k + 2))) (os : List (CloudObj (Fin (k + 2) → ℝ))) (o : CloudObj (Fin (k + 2) → ℝ))
    (f : Fin o.c.n → ℕ → ℝ), netSmallLoop (E.withDrops d1 d2) N o f os ls = netSmallLoop E N o f os ls
  | [], [], _, _ => rfl
  | [], [_], _, _ => rfl
  | [], _ :: _ :: _, _, _ => rfl
  | _ :: _, [], _, _ => rfl
  | l :: ls, o' :: os, o, f => by
    rw [netSmallLoop_cons, netSmallLoop_cons]
    have ih := fun f2 => netSmallLoop_drops E d1 d2 N ls os o' f2
    simp only [ih]
    rfl

/-- Specification: the dropout `d'` treats row `σ b` as `d` treats row `b`. -/
def DropMoved (σ : Equiv.Perm ℕ) (B : ℕ) (d d' : ∀ n, (Fin n → ℕ → ℝ) → Fin n → ℕ → ℝ) : Prop :=
  ∀ f f' : Fin B → ℕ → ℝ, (∀ b b' : Fin B, b'.val = σ b → f' b' = f b) → ∀ b b' : Fin B, b'.val = σ b → d' B f' b' = d B f b

/-- The rows in their new places. -/
def rowPerm (σ : Equiv.Perm ℕ) {B : ℕ} (hσ : ∀ b, σ b < B ↔ b < B) : Fin B ≃ Fin B :=
  Equiv.ofBijective (fun b => ⟨σ b, (hσ b).2 b.isLt⟩) (by
    rw [Finite.injective_iff_bijective.symm]
    intro a b h
    exact Fin.ext (σ.injective (Fin.mk.inj h)))

theorem dropout_equiv {B : ℕ} (hσ : ∀ b, σ b < B ↔ b < B) {d d' : ∀ n, (Fin n → ℕ → ℝ) → Fin n → ℕ → ℝ}
    (hd : DropMoved σ B d d') (tr : Bool) {f f' : Fin B → ℕ → ℝ} (hf : ∀ b, f' (rowPerm σ hσ b) = f b) (b : Fin B) :
    (if tr = true then d' B f' else f') (rowPerm σ hσ b) = (if tr = true then d B f else f) b := by
  cases tr with
  | false => simpa using hf b
  | true =>
    simp only [if_true]
    refine hd f f' ?_ b _ rfl
    intro a a' ha
    have : a' = rowPerm σ hσ a := Fin.ext ha
    rw [this, hf]

theorem head40_equiv (E : NetEnv) {d1 d2 : ∀ n, (Fin n → ℕ → ℝ) → Fin n → ℕ → ℝ} (h : NetHead) {B : ℕ}
    (hσ : ∀ b, σ b < B ↔ b < B) (h1 : DropMoved σ B E.drop1 d1) (h2 : DropMoved σ B E.drop2 d2) {f f' : Fin B → ℕ → ℝ}
    (hf : ∀ b, f' (rowPerm σ hσ b) = f b) (b : Fin B) :
    h.run40 (E.withDrops d1 d2) f' (rowPerm σ hσ b) = h.run40 E f b := by
  have a1 := bnAct_equiv E h.bn1 (rowPerm σ hσ) hf
  have a2 := dropout_equiv hσ h1 E.training a1
  have a3 := bn_equiv E.training h.bn2 (rowPerm σ hσ) (lin_equiv h.dense1 (rowPerm σ hσ) a2)
  have a4 := dropout_equiv hσ h2 E.training a3
  refine lin_equiv h.dense2 (rowPerm σ hσ) ?_ b
  intro i
  funext ch
  exact congrArg E.lrelu (congrFun (a4 i) ch)

theorem headSmall_equiv (E : NetEnv) {d1 d2 : ∀ n, (Fin n → ℕ → ℝ) → Fin n → ℕ → ℝ} (h : NetHead) {B : ℕ}
    (hσ : ∀ b, σ b < B ↔ b < B) (h1 : DropMoved σ B E.drop1 d1) (h2 : DropMoved σ B E.drop2 d2) {f f' : Fin B → ℕ → ℝ}
    (hf : ∀ b, f' (rowPerm σ hσ b) = f b) (b : Fin B) :
    h.runSmall (E.withDrops d1 d2) f' (rowPerm σ hσ b) = h.runSmall E f b := by
  have a1 := bnAct_equiv E h.bn1 (rowPerm σ hσ) hf
  have a2 := dropout_equiv hσ h1 E.training a1
  have a3 := bnAct_equiv E h.bn2 (rowPerm σ hσ) (lin_equiv h.dense1 (rowPerm σ hσ) a2)
  have a4 := dropout_equiv hσ h2 E.training a3
  exact lin_equiv h.dense2 (rowPerm σ hσ) a4 b

/-- Specification: the rows are those of the other batch in their new places. -/
def RowsMoved (σ : Equiv.Perm ℕ) (rows rows' : List (ℕ → ℝ)) : Prop :=
  rows'.length = rows.length ∧ ∀ b < rows.length, rows'[σ b]? = rows[b]?

theorem rowsMoved_ofFn {B : ℕ} (hσ : ∀ b, σ b < B ↔ b < B) {f f' : Fin B → ℕ → ℝ}
    (hf : ∀ b, f' (rowPerm σ hσ b) = f b) : RowsMoved σ (List.ofFn f) (List.ofFn f') := by
  refine ⟨by rw [List.length_ofFn, List.length_ofFn], ?_⟩
  intro b hb
  rw [List.length_ofFn] at hb
  rw [List.getElem?_ofFn, List.getElem?_ofFn, dif_pos hb, dif_pos ((hσ b).2 hb)]
  exact congrArg some (hf ⟨b, hb⟩)

theorem trainLoss_sum (C : ℕ) (e : ℝ) {B : ℕ} (labels : Fin B → ℕ) (logits : Fin B → ℕ → ℝ) :
    trainLoss C e labels logits = (∑ b, sparseCE C e (softmaxRow C (logits b)) (labels b)) / B := by
  unfold trainLoss batchLoss
  rw [List.length_ofFn, List.map_ofFn]
  congr 1
  rw [← List.sum_ofFn]
  congr 1
  apply List.ext_getElem
  · simp
  · intro i h1 h2
    simp

/-- **C165, the loss**: rows and labels in other places give the same loss, and the
gradient of the loss for a row goes to its new place. -/
theorem C165_loss (C : ℕ) (e : ℝ) {B : ℕ} (hσ : ∀ b, σ b < B ↔ b < B) {rows rows' : List (ℕ → ℝ)} (hlen : rows.length = B)
    (h : RowsMoved σ rows rows') {labels labels' : Fin B → ℕ} (hl : ∀ b b' : Fin B, b'.val = σ b → labels' b' = labels b) :
    trainLoss C e labels' (fun b => rows'.getD b 0) = trainLoss C e labels (fun b => rows.getD b 0) ∧
      ∀ b b' : Fin B, b'.val = σ b → trainLossGrad C e labels' (fun b => rows'.getD b 0) b' =
        trainLossGrad C e labels (fun b => rows.getD b 0) b := by
  have key : ∀ b : Fin B, rows'.getD (rowPerm σ hσ b) 0 = rows.getD b 0 := by
    intro b
    have := h.2 b (by omega)
    rw [List.getD_eq_getElem?_getD, List.getD_eq_getElem?_getD, ← this]
    rfl
  have kl : ∀ b : Fin B, labels' (rowPerm σ hσ b) = labels b := fun b => hl b _ rfl
  constructor
  · rw [trainLoss_sum, trainLoss_sum, ← Equiv.sum_comp (rowPerm σ hσ)]
    congr 1
    exact Finset.sum_congr rfl fun b _ => by rw [key, kl]
  · intro b b' hb
    obtain rfl : b' = rowPerm σ hσ b := Fin.ext hb
    funext i
    unfold trainLossGrad
    dsimp only
    rw [key, kl]

/-! ### The networks -/

theorem head40_rows (E : NetEnv) {d1 d2 : ∀ n, (Fin n → ℕ → ℝ) → Fin n → ℕ → ℝ} (h : NetHead) {B n n' : ℕ} (hn : n = B) (hn' : n' = B)
    (hσ : ∀ b, σ b < B ↔ b < B) (h1 : DropMoved σ B E.drop1 d1) (h2 : DropMoved σ B E.drop2 d2) {f : Fin n → ℕ → ℝ} {f' : Fin n' → ℕ → ℝ}
    (hf : ∀ b (hb : b < n) (hb' : σ b < n'), f' ⟨σ b, hb'⟩ = f ⟨b, hb⟩) :
    RowsMoved σ (List.ofFn (h.run40 E f)) (List.ofFn (h.run40 (E.withDrops d1 d2) f')) := by
  subst hn
  subst hn'
  exact rowsMoved_ofFn hσ (head40_equiv E h hσ h1 h2 (fun b => hf b b.isLt _))

theorem headSmall_rows (E : NetEnv) {d1 d2 : ∀ n, (Fin n → ℕ → ℝ) → Fin n → ℕ → ℝ} (h : NetHead) {B n n' : ℕ} (hn : n = B) (hn' : n' = B)
    (hσ : ∀ b, σ b < B ↔ b < B) (h1 : DropMoved σ B E.drop1 d1) (h2 : DropMoved σ B E.drop2 d2) {f : Fin n → ℕ → ℝ} {f' : Fin n' → ℕ → ℝ}
    (hf : ∀ b (hb : b < n) (hb' : σ b < n'), f' ⟨σ b, hb'⟩ = f ⟨b, hb⟩) :
    RowsMoved σ (List.ofFn (h.runSmall E f)) (List.ofFn (h.runSmall (E.withDrops d1 d2) f')) := by
  subst hn
  subst hn'
  exact rowsMoved_ofFn hσ (headSmall_equiv E h hσ h1 h2 (fun b => hf b b.isLt _))

/-- **C165, from the levels**: whichever points are sampled, in training and at
inference: if the levels of the hierarchies hold the same points, those of element `b`
as element `σ b`, the rows are the same, row `b` as row `σ b`. -/
theorem C165_from_levels (E : NetEnv) (heps : 0 < E.eps) (N : Net40 (k + 2)) (hN : N.Ok)
    {d1 d2 : ∀ n, (Fin n → ℕ → ℝ) → Fin n → ℕ → ℝ}
    {H H' : Hier k ℝ} {B : ℕ} (hσ : ∀ b, σ b < B ↔ b < B) (h1 : DropMoved σ B E.drop1 d1) (h2 : DropMoved σ B E.drop2 d2)
    (hcl : ∀ p ∈ H.clouds, p.c.Valid ∧ p.c.B = B)
    (hcl' : ∀ p ∈ H'.clouds, p.c.Valid ∧ p.c.B = B) (hF : SameLevels σ H.clouds H'.clouds)
    {feats feats' : List (List (ℕ → ℝ))} (v : ℕ → ℝ)
    (hc : ∀ row ∈ feats, ∀ x ∈ row, x = v) (hc' : ∀ row ∈ feats', ∀ x ∈ row, x = v) {rows rows' : List (ℕ → ℝ)}
    (h : N.logits E H feats = .ok rows) (h' : N.logits (E.withDrops d1 d2) H' feats' = .ok rows') :
    rows.length = B ∧ RowsMoved σ rows rows' := by
  unfold Net40.logits at h h'
  split at h
  swap
  · cases h
  rename_i x0 o1 os hcl1
  split at h'
  swap
  · cases h'
  rename_i x0' o1' os' hcl1'
  rw [hcl1] at hcl
  rw [hcl1'] at hcl'
  split at h
  · cases h
  rename_i f0 e0
  split at h
  · cases h
  rename_i f1 e1
  split at h
  · cases h
  rename_i f2 e2
  split at h
  · cases h
  rename_i p g e3
  split at h'
  · cases h'
  rename_i f0' e0'
  split at h'
  · cases h'
  rename_i f1' e1'
  split at h'
  · cases h'
  rename_i f2' e2'
  split at h'
  · cases h'
  rename_i p' g' e3'
  simp only [Except.ok.injEq] at h h'
  subst h h'
  rw [net40Loop_drops] at e3'
  have hp := (hcl p (List.mem_cons_of_mem _ (net40Loop_last E _ _ _ _ _ _ e3))).2
  have hp' := (hcl' p' (List.mem_cons_of_mem _ (net40Loop_last E _ _ _ _ _ _ e3'))).2
  refine ⟨by rw [List.length_ofFn, hp], ?_⟩
  unfold SameLevels at hF
  rw [hcl1, hcl1', List.forall₂_cons, List.forall₂_cons] at hF
  obtain ⟨_, ⟨t⟩, hos⟩ := hF
  have v1 := (hcl o1 (by simp)).1
  have v1' := (hcl' o1' (by simp)).1
  have a0 : ∀ q, f0' (t.e q) = f0 q := fun i => by
    rw [flattenFeatures_const _ _ v (fun r hr => hc r (List.mem_of_mem_take hr)) f0 e0,
      flattenFeatures_const _ _ v (fun r hr => hc' r (List.mem_of_mem_take hr)) f0' e0']
  have a1 := call_batch E hN.init t t hN.radius0.2 heps v1 v1' a0 e1 e1'
  have a2 := run_batch_plain E hN.block0.1 hN.block0.2 t hN.radius0.2 heps v1 v1' a1 e2 e2'
  obtain ⟨u, hu⟩ := net40Loop_batch E heps N.levels hN.levels os os' o1 o1' f2 f2' t a2
    (fun q hq => (hcl q (List.mem_cons_of_mem _ hq)).1) (fun q hq => (hcl' q (List.mem_cons_of_mem _ hq)).1) hos p p' g g' e3 e3'
  refine head40_rows E N.head hp hp' hσ h1 h2 ?_
  intro b hb hb'
  funext ch
  rw [C94_global_pooling (u.elem b) .mean hb hb' g g' (fun q => hu q) ch]

theorem sameLevels_of {os os' : List (CloudObj (Fin (k + 2) → ℝ))}
    (h : ∀ b, List.Forall₂ (fun o o' : CloudObj (Fin (k + 2) → ℝ) => Nonempty (SameElem o.c o'.c b (σ b))) os os') :
    SameLevels σ os os' := by
  induction os generalizing os' with
  | nil =>
    cases h 0
    exact .nil
  | cons o os ih =>
    cases os' with
    | nil => cases h 0
    | cons o' os' =>
      refine .cons ⟨SameBatch.ofElems fun b => ((List.forall₂_cons.1 (h b)).1).some⟩ (ih fun b => (List.forall₂_cons.1 (h b)).2)

/-- Specification: the batch `points'` with `sizes'` holds the shapes of `points`, that
of place `b` in place `σ b`, with its points in any order. -/
def ShapesMovedTo {α : Type*} (σ : Equiv.Perm ℕ) (points : List (List α)) (sizes : List ℕ) (points' : List (List α))
    (sizes' : List ℕ) : Prop :=
  points'.length = points.length ∧ (∀ b, σ b < points.length ↔ b < points.length) ∧
    ∀ b < points.length, ((points.getD b []).take (sizes.getD b 0)).Perm ((points'.getD (σ b) []).take (sizes'.getD (σ b) 0))

theorem ShapesMovedTo.all {α : Type*} {points points' : List (List α)} {sizes sizes' : List ℕ}
    (h : ShapesMovedTo σ points sizes points' sizes') (b : ℕ) :
    ((points.getD b []).take (sizes.getD b 0)).Perm ((points'.getD (σ b) []).take (sizes'.getD (σ b) 0)) := by
  obtain ⟨h1, h2, h3⟩ := h
  by_cases hb : b < points.length
  · exact h3 b hb
  · have hb' : ¬ σ b < points'.length := by rw [h1, h2]; exact hb
    have e1 : points.getD b [] = [] := by
      rw [List.getD_eq_getElem?_getD, List.getElem?_eq_none (by omega)]
      rfl
    have e2 : points'.getD (σ b) [] = [] := by
      rw [List.getD_eq_getElem?_getD, List.getElem?_eq_none (by omega)]
      rfl
    rw [e1, e2]
    simp

/-- **C165**: with cell averages and constant input features, in training and at
inference, the order of the shapes of the batch and of their points and the padding do
not matter: the row of a shape goes to its new place, and the training loss is the same. -/
theorem C165_net40 (E : NetEnv) (heps : 0 < E.eps) (N : Net40 (k + 2)) (hN : N.Ok)
    (lower : String → String) (mode : String) (hm : lower mode ∈ ["average", "cell average", "cell_average"])
    {B V B' V' : ℕ} {points points' : List (List (Fin (k + 2) → ℝ))} {sizes sizes' : List ℕ}
    (hP : PaddedOk V points sizes) (hP' : PaddedOk V' points' sizes') (hM : ShapesMovedTo σ points sizes points' sizes')
    {d1 d2 : ∀ n, (Fin n → ℕ → ℝ) → Fin n → ℕ → ℝ} (h1 : DropMoved σ points.length E.drop1 d1)
    (h2 : DropMoved σ points.length E.drop2 d2) {feats feats' : List (List (ℕ → ℝ))} (v : ℕ → ℝ)
    (hc : ∀ row ∈ feats, ∀ x ∈ row, x = v) (hc' : ∀ row ∈ feats', ∀ x ∈ row, x = v) {rows rows' : List (ℕ → ℝ)}
    (h : N.Call E lower mode B V points feats sizes (.ok rows))
    (h' : N.Call (E.withDrops d1 d2) lower mode B' V' points' feats' sizes' (.ok rows')) :
    rows.length = points.length ∧ RowsMoved σ rows rows' ∧
      ∀ (C : ℕ) (e : ℝ) (labels labels' : Fin points.length → ℕ), (∀ b b' : Fin points.length, b'.val = σ b → labels' b' = labels b) →
        trainLoss C e labels' (fun b => rows'.getD b 0) = trainLoss C e labels (fun b => rows.getD b 0) := by
  unfold Net40.Call at h h'
  split at h
  · cases h
  rename_i o ho
  split at h'
  · cases h'
  rename_i o' ho'
  rcases h with ⟨e, _, he⟩ | ⟨H, hH, h⟩
  · cases he
  rcases h' with ⟨e, _, he⟩ | ⟨H', hH', h'⟩
  · cases he
  change HierNew E.dev E.eps lower mode o' N.sizes (.ok H') at hH'
  obtain ⟨p1, p2, p3, _, _, _, _, _, p8⟩ := newPadded_spec hP.len hP.block hP.size ho
  obtain ⟨q1, q2, q3, _, _, _, _, _, q8⟩ := newPadded_spec hP'.len hP'.block hP'.size ho'
  have hF : SameLevels σ H.clouds H'.clouds := sameLevels_of fun b => by
    have hperm := hM.all b
    rw [← p8, ← q8] at hperm
    obtain ⟨s⟩ := SameElem.ofPerm hperm
    exact (C94_hierarchy heps hm p3 q3 s N.sizes H H' hH hH' (net40_pos hN hH)).2
  have hB : o.c.B = points.length := by rw [p2, p1]
  have hB' : o'.c.B = points.length := by rw [q2, q1, hM.1]
  have key := C165_from_levels E heps N hN hM.2.1 h1 h2
    (fun p hp => ⟨(hier_clouds heps p3 hH (net40_pos hN hH) p hp).1, ((hier_clouds heps p3 hH (net40_pos hN hH) p hp).2).trans hB⟩)
    (fun p hp => ⟨(hier_clouds heps q3 hH' (net40_pos hN hH') p hp).1, ((hier_clouds heps q3 hH' (net40_pos hN hH') p hp).2).trans hB'⟩)
    hF v hc hc' h.symm h'.symm
  exact ⟨key.1, key.2, fun C e labels labels' hl => (C165_loss C e hM.2.1 key.1 key.2 hl).1⟩

/-- **C165, the small network, from the levels**: the same for the network of
`modelnet40_small.py`, with any input features, if every element has one point on the
last level. -/
theorem C165_small_from_levels (E : NetEnv) (heps : 0 < E.eps) (N : NetSmall (k + 2)) (hN : N.Ok)
    {d1 d2 : ∀ n, (Fin n → ℕ → ℝ) → Fin n → ℕ → ℝ}
    {H H' : Hier k ℝ} {B : ℕ} (hσ : ∀ b, σ b < B ↔ b < B) (h1 : DropMoved σ B E.drop1 d1) (h2 : DropMoved σ B E.drop2 d2)
    (hcl : ∀ p ∈ H.clouds, p.c.Valid ∧ p.c.B = B)
    (hcl' : ∀ p ∈ H'.clouds, p.c.Valid ∧ p.c.B = B) {p p' : CloudObj (Fin (k + 2) → ℝ)}
    (hp : H.clouds.getLast? = some p) (hp' : H'.clouds.getLast? = some p') (ho1 : OnePerElement p.c)
    (ho1' : OnePerElement p'.c) {o o' : CloudObj (Fin (k + 2) → ℝ)} (ho : H.clouds.head? = some o)
    (ho' : H'.clouds.head? = some o')
    {feats feats' : List (List (ℕ → ℝ))} {rows rows' : List (ℕ → ℝ)}
    {f : Fin o.c.n → ℕ → ℝ} {f' : Fin o'.c.n → ℕ → ℝ} (hf : (o.flattenFeatures feats).1 = .ok f)
    (hf' : (o'.flattenFeatures feats').1 = .ok f') (s : SameBatch o.c o'.c σ) (hs : ∀ q, f' (s.e q) = f q)
    (hF : SameLevels σ H.clouds H'.clouds)
    (h : N.logits E H feats = .ok rows) (h' : N.logits (E.withDrops d1 d2) H' feats' = .ok rows') :
    rows.length = B ∧ RowsMoved σ rows rows' := by
  have hpm := hcl p (List.mem_of_getLast? hp)
  have hpm' := hcl' p' (List.mem_of_getLast? hp')
  obtain ⟨s1, s2⟩ := sorted_one p.c hpm.1 ho1
  obtain ⟨s1', s2'⟩ := sorted_one p'.c hpm'.1 ho1'
  obtain ⟨_, hq, hlen⟩ := C98_rows E N h
  rw [hp, Option.some.injEq] at hq
  subst hq
  refine ⟨by rw [hlen, s1, hpm.2], ?_⟩
  unfold NetSmall.logits at h h'
  split at h
  swap
  · cases h
  rename_i o1 os hcl1
  split at h'
  swap
  · cases h'
  rename_i o1' os' hcl1'
  unfold SameLevels at hF
  rw [hcl1] at hcl hp ho hF
  rw [hcl1'] at hcl' hp' ho' hF
  simp only [List.head?_cons, Option.some.injEq] at ho ho'
  subst ho ho'
  rw [hf] at h
  rw [hf'] at h'
  dsimp only at h h'
  rw [netSmallLoop_drops] at h'
  split at h
  · cases h
  rename_i n g e1
  split at h'
  · cases h'
  rename_i n' g' e1'
  simp only [Except.ok.injEq] at h h'
  subst h h'
  rw [List.forall₂_cons] at hF
  obtain ⟨rfl, rfl, t, u, u', hu, hg, hg'⟩ := netSmallLoop_batch E heps N hN.last N.levels hN.levels os os' o1 o1' f f' s hs
    (fun q hq => (hcl q hq).1) (fun q hq => (hcl' q hq).1) hF.2 p p' hp hp' n n' g g' e1 e1'
  cases hg
  cases hg'
  refine headSmall_rows E N.head (s1.trans hpm.2) (s1'.trans hpm'.2) hσ h1 h2 ?_
  intro b hb hb'
  simp only [Function.comp]
  have e1 := s2 ⟨b, hb⟩
  have e2 := s2' ⟨σ b, hb'⟩
  rw [← hu]
  congr 1
  -- both points carry the id `σ b`, so they coincide
  have hc := ho1' (σ b) (by omega)
  rw [Cloud.countIn, Finset.card_eq_one] at hc
  obtain ⟨a, ha⟩ := hc
  have m1 : p'.c.sortedIndicesBatch ⟨σ b, hb'⟩ ∈ Finset.univ.filter (fun i => p'.c.batch i = σ b) := by
    simpa using e2
  have m2 : t.e (p.c.sortedIndicesBatch ⟨b, hb⟩) ∈ Finset.univ.filter (fun i => p'.c.batch i = σ b) := by
    simp only [Finset.mem_filter, Finset.mem_univ, true_and]
    rw [t.batch, e1]
  rw [ha, Finset.mem_singleton] at m1 m2
  rw [m1, m2]

/-- **C165, the small network**: with cell averages and shapes small against the last
cell size, the order of the shapes and of their points, with their features, does not
matter, in training either. -/
theorem C165_small_partial (E : NetEnv) (heps : 0 < E.eps) (N : NetSmall (k + 2))
    (hN : N.Ok) (lower : String → String) (mode : String) (hm : lower mode ∈ ["average", "cell average", "cell_average"])
    {B V B' V' : ℕ} {points points' : List (List (Fin (k + 2) → ℝ))} {sizes sizes' : List ℕ}
    (hP : PaddedOk V points sizes) (hP' : PaddedOk V' points' sizes') (hne : ∀ s ∈ sizes, 0 < s) (hne' : ∀ s ∈ sizes', 0 < s)
    (hsm : ShapesSmall E.eps N.lastSampleRadius lower mode (List.zipWith (fun l s => l.take s) points sizes))
    (hsm' : ShapesSmall E.eps N.lastSampleRadius lower mode (List.zipWith (fun l s => l.take s) points' sizes'))
    {feats feats' : List (List (ℕ → ℝ))} (hf : feats.length = points.length) (hfV : ∀ row ∈ feats, row.length = V)
    (hf' : feats'.length = points'.length) (hfV' : ∀ row ∈ feats', row.length = V') {rows rows' : List (ℕ → ℝ)}
    (hM : ShapesMovedTo σ (List.zipWith List.zip points feats) sizes (List.zipWith List.zip points' feats') sizes')
    {d1 d2 : ∀ n, (Fin n → ℕ → ℝ) → Fin n → ℕ → ℝ} (h1 : DropMoved σ points.length E.drop1 d1)
    (h2 : DropMoved σ points.length E.drop2 d2)
    (h : N.Call E lower mode B V points feats sizes (.ok rows))
    (h' : N.Call (E.withDrops d1 d2) lower mode B' V' points' feats' sizes' (.ok rows')) :
    rows.length = points.length ∧ RowsMoved σ rows rows' ∧
      ∀ (C : ℕ) (e : ℝ) (labels labels' : Fin points.length → ℕ), (∀ b b' : Fin points.length, b'.val = σ b → labels' b' = labels b) →
        trainLoss C e labels' (fun b => rows'.getD b 0) = trainLoss C e labels (fun b => rows.getD b 0) := by
  unfold NetSmall.Call at h h'
  split at h
  · cases h
  rename_i o ho
  split at h'
  · cases h'
  rename_i o' ho'
  rcases h with ⟨e, _, he⟩ | ⟨H, hH, h⟩
  · cases he
  rcases h' with ⟨e, _, he⟩ | ⟨H', hH', h'⟩
  · cases he
  change HierNew E.dev E.eps lower mode o' N.sizes (.ok H') at hH'
  obtain ⟨p1, p2, p3, _⟩ := newPadded_spec hP.len hP.block hP.size ho
  obtain ⟨q1, q2, q3, _⟩ := newPadded_spec hP'.len hP'.block hP'.size ho'
  have hrs : ∀ x ∈ N.levels.map LevelSmall.sampleRadius, 0 < x := by
    intro x hx
    obtain ⟨l, hl, rfl⟩ := List.mem_map.1 hx
    exact (hN.levels l hl).2.1
  obtain ⟨p, hp, hone⟩ := hier_one heps p3 (padded_noEmpty hP ho hne) hrs hN.last.2.1 hH (smallShapes_of hP ho hsm)
  obtain ⟨p', hp', hone'⟩ := hier_one heps q3 (padded_noEmpty hP' ho' hne') hrs hN.last.2.1 hH' (smallShapes_of hP' ho' hsm')
  have hh := (C31_hierarchy_well_formed _ _ heps lower mode o p3 _ H hH (netSmall_pos hN hH)).2.1
  have hh' := (C31_hierarchy_well_formed _ _ heps lower mode o' q3 _ H' hH' (netSmall_pos hN hH')).2.1
  have hfl : ∀ {E : NetEnv} {o : CloudObj (Fin (k + 2) → ℝ)} {H : Hier k ℝ} {feats : List (List (ℕ → ℝ))} {rows : List (ℕ → ℝ)},
      H.clouds.head? = some o → Except.ok rows = N.logits E H feats → ∃ f, (o.flattenFeatures feats).1 = .ok f := by
    intro E o H feats rows hh h
    unfold NetSmall.logits at h
    split at h
    swap
    · cases h
    rename_i o1 os hcl
    rw [hcl, List.head?_cons, Option.some.injEq] at hh
    subst hh
    split at h
    · cases h
    · rename_i f0 e0
      exact ⟨f0, e0⟩
  obtain ⟨f, ef⟩ := hfl hh h
  obtain ⟨f', ef'⟩ := hfl hh' h'
  have hel : ∀ b, ∃ s : SameElem o.c o'.c b (σ b), s.Agree f f' := by
    intro b
    have hperm := hM.all b
    rw [← padded_features hP ho hf hfV ef, ← padded_features hP' ho' hf' hfV' ef'] at hperm
    exact SameElem.ofPermFeatures hperm
  choose s hs using hel
  have hlen : points'.length = points.length := by
    have := hM.1
    simp only [List.length_zipWith] at this
    omega
  have hσ : ∀ b, σ b < points.length ↔ b < points.length := by
    have := hM.2.1
    simp only [List.length_zipWith, hf, min_self] at this
    exact this
  have hB : o.c.B = points.length := by rw [p2, p1]
  have hB' : o'.c.B = points.length := by rw [q2, q1, hlen]
  have key := C165_small_from_levels E heps N hN hσ h1 h2
    (fun p hp => ⟨(hier_clouds heps p3 hH (netSmall_pos hN hH) p hp).1, ((hier_clouds heps p3 hH (netSmall_pos hN hH) p hp).2).trans hB⟩)
    (fun p hp => ⟨(hier_clouds heps q3 hH' (netSmall_pos hN hH') p hp).1, ((hier_clouds heps q3 hH' (netSmall_pos hN hH') p hp).2).trans hB'⟩)
    hp hp' hone hone' hh hh' ef ef' (SameBatch.ofElems s) (fun q => hs (o.c.batch q) ⟨q, rfl⟩)
    (sameLevels_of fun b => (C94_hierarchy heps hm p3 q3 (s b) _ H H' hH hH' (netSmall_pos hN hH)).2) h.symm h'.symm
  exact ⟨key.1, key.2, fun C e labels labels' hl => (C165_loss C e hσ key.1 key.2 hl).1⟩

/-! ### Example -/

/-- Training, with a dropout that drops the first row. -/
noncomputable def exOrderEnv : NetEnv := { exEnv with training := true, drop1 := fun _ f i => if i.val = 0 then 0 else f i }
/-- The dropout for the other order of the shapes. -/
noncomputable def exDrop : ∀ n, (Fin n → ℕ → ℝ) → Fin n → ℕ → ℝ := fun _ f i => if i.val = 1 then 0 else f i
/-- The shapes of `exShapes` exchanged, with their points in another order. -/
def exShapesSwapped : List (List (Fin 2 → ℝ)) :=
  [[![2, 0], ![0, 0], ![7, 7]], [![0, 1], ![0, 0], ![1, 0]]]

theorem exDrop_moved : DropMoved (Equiv.swap 0 1) 2 exOrderEnv.drop1 exDrop := by
  intro f f' hf b b' hb
  simp only [exOrderEnv, exDrop]
  have h := hf b b' hb
  fin_cases b
  · simp only [Equiv.swap_apply_left] at hb
    simp [hb]
  · simp only [Equiv.swap_apply_right] at hb
    simpa [hb] using h

theorem exDrop2_moved : DropMoved (Equiv.swap 0 1) 2 exOrderEnv.drop2 (fun _ f => f) := fun f f' hf b b' hb => hf b b' hb

theorem exShapes_moved : ShapesMovedTo (Equiv.swap 0 1) exShapes [3, 2] exShapesSwapped [2, 3] := by
  refine ⟨rfl, ?_, ?_⟩
  · intro b
    simp only [exShapes, List.length_cons, List.length_nil]
    rcases b with _ | _ | b
    · simp
    · simp
    · rw [Equiv.swap_apply_of_ne_of_ne (by omega) (by omega)]
  · intro b hb
    simp only [exShapes, List.length_cons, List.length_nil] at hb
    rcases b with _ | _ | b
    · simp only [Equiv.swap_apply_left, exShapes, exShapesSwapped, List.getD_cons_succ, List.getD_cons_zero, List.take_succ_cons,
        List.take_zero]
      exact List.Perm.swap _ _ _
    · simp only [zero_add, Equiv.swap_apply_right, exShapes, exShapesSwapped, List.getD_cons_succ, List.getD_cons_zero,
        List.take_succ_cons, List.take_zero]
      exact List.Perm.swap _ _ _
    · omega

/-- The hypotheses of C165 are met, in training. -/
example : ∃ rows rows', exNet40.Call exOrderEnv id "average" 2 3 exShapes (List.replicate 2 (List.replicate 3 (fun _ => 1))) [3, 2]
      (.ok rows) ∧
    exNet40.Call (exOrderEnv.withDrops exDrop (fun _ f => f)) id "average" 2 3 exShapesSwapped
      (List.replicate 2 (List.replicate 3 (fun _ => 1))) [2, 3] (.ok rows') ∧
    rows.length = 2 ∧ rows'[0]? = rows[1]? ∧ rows'[1]? = rows[0]? ∧
    trainLoss 2 (1 / 100) ![1, 0] (fun b => rows'.getD b 0) = trainLoss 2 (1 / 100) ![0, 1] (fun b => rows.getD b 0) := by
  have hP : PaddedOk 3 exShapes [3, 2] := ⟨rfl, by simp [exShapes], by simp⟩
  have hP' : PaddedOk 3 exShapesSwapped [2, 3] := ⟨rfl, by simp [exShapesSwapped], by simp⟩
  have he : 0 < exOrderEnv.eps := by norm_num [exOrderEnv, exEnv]
  obtain ⟨rows, h⟩ := (C97_returns exOrderEnv rfl he exNet40 exNet40_ok id "average" (by simp) hP (by simp) (by simp [exShapes])
    (feats := List.replicate 2 (List.replicate 3 (fun _ => 1))) rfl (by simp)).1
  obtain ⟨rows', h'⟩ := (C97_returns (exOrderEnv.withDrops exDrop (fun _ f => f)) rfl he exNet40 exNet40_ok id "average" (by simp) hP'
    (by simp) (by simp [exShapesSwapped]) (feats := List.replicate 2 (List.replicate 3 (fun _ => 1))) rfl (by simp)).1
  obtain ⟨k1, k2, k3⟩ := C165_net40 exOrderEnv he exNet40 exNet40_ok id "average" (by simp) hP hP' exShapes_moved exDrop_moved
    exDrop2_moved (fun _ => 1) (by simp) (by simp) h h'
  refine ⟨rows, rows', h, h', k1, ?_, ?_, ?_⟩
  · have := k2.2 1 (by rw [k1]; decide)
    rwa [Equiv.swap_apply_right] at this
  · have := k2.2 0 (by rw [k1]; decide)
    rwa [Equiv.swap_apply_left] at this
  · have hl : ∀ b b' : Fin 2, b'.val = Equiv.swap 0 1 b.val → (![1, 0] : Fin 2 → ℕ) b' = (![0, 1] : Fin 2 → ℕ) b := by decide
    exact k3 2 (1 / 100) ![0, 1] ![1, 0] hl

end
end PC
