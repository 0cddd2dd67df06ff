import Verif.Nets
import Verif.Props.BatchElem
import Verif.Props.HierPool
import Mathlib.Logic.Equiv.Fintype

/-!
# Properties C97, C98: the networks of the training scripts
-/

set_option linter.unusedVariables false
set_option linter.unusedSectionVars false

namespace PC

/-! ## Elements with the same points -/

theorem fiber_equiv {A B Y : Type*} [Fintype A] [Fintype B] (f : A → Y) (g : B → Y)
    (h : ∀ y, Nat.card {a // f a = y} = Nat.card {b // g b = y}) : ∃ e : A ≃ B, ∀ a, g (e a) = f a := by
  classical
  have h' : ∀ y, Nonempty ({a // f a = y} ≃ {b // g b = y}) := by
    intro y
    have := h y
    rw [Nat.card_eq_fintype_card, Nat.card_eq_fintype_card] at this
    exact ⟨Fintype.equivOfCardEq this⟩
  let e := fun y => (h' y).some
  refine ⟨(Equiv.sigmaFiberEquiv f).symm.trans ((Equiv.sigmaCongrRight e).trans (Equiv.sigmaFiberEquiv g)), ?_⟩
  intro a
  exact (e (f a) ⟨a, rfl⟩).2

theorem members_fiber {α : Type*} (c : Cloud α) (b : ℕ) (y : α) [DecidableEq α] :
    Nat.card {p : {p : Fin c.n // c.batch p = b} // c.pts p = y} = ((c.members b).map c.pts).count y := by
  rw [List.count, List.countP_map, List.countP_eq_length_filter, Cloud.members, List.filter_filter]
  rw [Nat.card_congr (Equiv.subtypeSubtypeEquivSubtypeInter (fun p => c.batch p = b) (fun p => c.pts p = y)),
    Nat.card_eq_fintype_card, Fintype.card_subtype]
  have : (Finset.univ.filter (fun p => c.batch p = b ∧ c.pts p = y)) =
      ((List.finRange c.n).filter (fun a => ((· == y) ∘ c.pts) a && decide (c.batch a = b))).toFinset := by
    ext p
    simp [and_comm]
  rw [this, List.toFinset_card_of_nodup ((List.nodup_finRange _).filter _)]

/-- Elements listing the same points, in any order, are the same. -/
theorem SameElem.ofPerm {D : ℕ} {c c' : Cloud (Fin D → ℝ)} {b b' : ℕ}
    (h : ((c.members b).map c.pts).Perm ((c'.members b').map c'.pts)) : Nonempty (SameElem c c' b b') := by
  classical
  obtain ⟨e, he⟩ := fiber_equiv (fun p : {p : Fin c.n // c.batch p = b} => c.pts p)
    (fun p : {p : Fin c'.n // c'.batch p = b'} => c'.pts p) (by
      intro y
      rw [members_fiber, members_fiber, h.count_eq])
  exact ⟨⟨e, he⟩⟩

theorem zip_members {α : Type*} (ids : List ℕ) (flat : List α) (h : ids.length = flat.length) (B b : ℕ) :
    (((⟨flat, ids, B⟩ : RawCloud α).toCloud h).members b).map ((⟨flat, ids, B⟩ : RawCloud α).toCloud h).pts =
      ((ids.zip flat).filter (fun p => p.1 = b)).map Prod.snd := by
  have hz : ids.zip flat = (List.finRange flat.length).map
      (fun i => (ids[i.val]'(by rw [h]; exact i.isLt), flat[i])) := by
    apply List.ext_getElem
    · simp [h]
    · intro i h1 h2
      simp
  rw [hz, List.filter_map, List.map_map]
  rfl

theorem padded_element {α : Type*} (V : ℕ) (blocks : List (List α)) (sizes : List ℕ)
    (hlen : blocks.length = sizes.length) (hV : ∀ b ∈ blocks, b.length = V) (hs : ∀ s ∈ sizes, s ≤ V) (k b : ℕ) :
    ((((sizes.zipIdx k).flatMap (fun p => List.replicate p.1 p.2)).zip (flattenRows blocks sizes)).filter
      (fun p => p.1 = b)).map Prod.snd =
    if k ≤ b then (blocks.getD (b - k) []).take (sizes.getD (b - k) 0) else [] := by
  induction blocks generalizing sizes k with
  | nil =>
    cases sizes with
    | nil => simp [flattenRows]
    | cons s t => simp at hlen
  | cons l ls ih =>
    cases sizes with
    | nil => simp at hlen
    | cons s t =>
      have hlV : l.length = V := hV l (by simp)
      have hsV : s ≤ V := hs s (by simp)
      have hrow : flattenRows (l :: ls) (s :: t) = l.take s ++ flattenRows ls t := by
        simp [flattenRows]
      rw [hrow, List.zipIdx_cons, List.flatMap_cons]
      dsimp only
      rw [List.zip_append (by simp [hlV, hsV]), List.filter_append, List.map_append,
        ih t (by simpa using hlen) (fun b hb => hV b (by simp [hb])) (fun x hx => hs x (by simp [hx])) (k + 1)]
      have h1 : (((List.replicate s k).zip (l.take s)).filter (fun p => p.1 = b)).map Prod.snd =
          if k = b then l.take s else [] := by
        by_cases hkb : k = b
        · rw [if_pos hkb, List.filter_eq_self.2, List.map_snd_zip (by simp)]
          intro p hp
          have := (List.of_mem_zip hp).1
          rw [List.mem_replicate] at this
          simp [this.2, hkb]
        · rw [if_neg hkb, List.filter_eq_nil_iff.2]
          · rfl
          · intro p hp
            have := (List.of_mem_zip hp).1
            rw [List.mem_replicate] at this
            simp [this.2, hkb]
      rw [h1]
      rcases lt_trichotomy k b with hkb | hkb | hkb
      · rw [if_neg hkb.ne, if_pos (by omega), if_pos (by omega), List.nil_append]
        have : b - k = (b - (k + 1)) + 1 := by omega
        rw [this]
        rfl
      · subst hkb
        rw [if_pos rfl, if_neg (by omega), if_pos le_rfl]
        simp
      · rw [if_neg (by omega), if_neg (by omega), if_neg (by omega)]
        rfl

/-- What `newPadded` stores. -/
theorem newPadded_spec {α : Type*} {V B : ℕ} {blocks : List (List α)} {sizes : List ℕ} {o : CloudObj α}
    (hlen : sizes.length = blocks.length) (hV : ∀ b ∈ blocks, b.length = V) (hs : ∀ s ∈ sizes, s ≤ V)
    (h : CloudObj.newPadded [blocks.length] V blocks (some sizes) (some B) = .ok o) :
    B = blocks.length ∧ o.c.B = B ∧ o.c.Valid ∧ o.batchShape = some [B] ∧ o.sizes = some ([B], sizes) ∧
    (∀ i j : Fin o.c.n, i ≤ j → o.c.batch i ≤ o.c.batch j) ∧ List.ofFn o.c.pts = flattenRows blocks sizes ∧
    List.ofFn o.c.batch = repeatRange sizes ∧
    ∀ b, (o.c.members b).map o.c.pts = (blocks.getD b []).take (sizes.getD b 0) := by
  unfold CloudObj.newPadded at h
  simp only [Option.getD_some, List.prod_cons, List.prod_nil, mul_one] at h
  split at h
  · simp at h
  rename_i hB
  rw [not_not] at hB
  split at h
  swap
  · simp at h
  rename_i hl
  simp only [Except.ok.injEq] at h
  subst h
  refine ⟨hB, rfl, ?_, by rw [hB], by rw [hB], ?_, ?_, ?_, ?_⟩
  · intro i
    show (repeatRange sizes)[i.val]'_ < B
    have hm := List.getElem_mem (l := repeatRange sizes) (n := i.val) (i.isLt.trans_eq hl.symm)
    unfold repeatRange at hm
    rw [List.mem_flatMap] at hm
    obtain ⟨p, hp, hm⟩ := hm
    rw [List.mem_replicate] at hm
    have := List.snd_lt_add_of_mem_zipIdx hp
    unfold repeatRange
    rw [hm.2]
    omega
  · intro i j hij
    rcases eq_or_lt_of_le hij with rfl | hij
    · exact le_rfl
    · exact List.pairwise_iff_getElem.mp (repeatRange_sorted sizes) i.val j.val
        (i.isLt.trans_eq hl.symm) (j.isLt.trans_eq hl.symm) hij
  · exact List.ofFn_getElem
  · apply List.ext_getElem
    · rw [List.length_ofFn]
      exact hl.symm
    · intro i h1 h2
      rw [List.getElem_ofFn]
      rfl
  · intro b
    dsimp only
    rw [zip_members]
    have := padded_element V blocks sizes hlen.symm hV hs 0 b
    rw [if_pos (Nat.zero_le _), Nat.sub_zero] at this
    exact this

/-! ## The layers of the networks and batch elements -/

section
variable {k : ℕ}

/-- A layer the constructors accept. -/
def NetConv.Ok {D : ℕ} : NetConv D → Prop
  | .mc _ => True
  | .pc _ => True
  | .kp L => 0 < L.cin ∧ 0 < L.nk ∧ L.nkp = L.nk

theorem NetConv.call_elem (E : NetEnv) {L : NetConv (k + 2)} (hL : L.Ok) {cin cin' cout cout' : Cloud (Fin (k + 2) → ℝ)}
    {b b' : ℕ} (s : SameElem cin cin' b b') (t : SameElem cout cout' b b') {radius : ℝ} (hr : 0 < radius)
    (heps : 0 < E.eps) (hv : cin.Valid) (hv' : cin'.Valid) {f : Fin cin.n → ℕ → ℝ} {f' : Fin cin'.n → ℕ → ℝ}
    (hf : s.Agree f f') {g : Fin cout.n → ℕ → ℝ} {g' : Fin cout'.n → ℕ → ℝ}
    (h : L.call E cin cout radius f = .ok g) (h' : L.call E cin' cout' radius f' = .ok g') : t.Agree g g' := by
  have ok : LayerOk cin cout radius E.eps := ⟨hv, hr, heps⟩
  have ok' : LayerOk cin' cout' radius E.eps := ⟨hv', hr, heps⟩
  cases L with
  | mc L => exact C94_mcconv s t _ _ _ _ _ _ L radius _ ok ok' f f' hf g g' h h'
  | pc L => exact C94_pointconv s t _ _ _ _ _ _ L radius _ ok ok' f f' hf g g' h h'
  | kp L =>
    unfold NetConv.call at h h'
    dsimp only at h h'
    split at h
    · cases h
    · rename_i n out ho
      split at h
      swap
      · cases h
      simp only [Except.ok.injEq] at h
      split at h'
      · cases h'
      · rename_i n' out' ho'
        split at h'
        swap
        · cases h'
        simp only [Except.ok.injEq] at h'
        subst h h'
        intro i
        funext o
        exact C94_kpconv s t _ _ _ _ L radius ok ok' none hL.1 hL.2.1 hL.2.2 f f' hf n n' out out' ho ho' i o

theorem bnAct_elem (E : NetEnv) (hE : E.training = false) (bn : BNorm) {c c' : Cloud (Fin (k + 2) → ℝ)} {b b' : ℕ}
    (s : SameElem c c' b b') {f : Fin c.n → ℕ → ℝ} {f' : Fin c'.n → ℕ → ℝ} (hf : s.Agree f f') :
    s.Agree (E.bnAct bn f) (E.bnAct bn f') := by
  intro p
  funext ch
  simp only [NetEnv.bnAct, BNorm.apply, hE, Bool.false_eq_true, if_false, hf p]

theorem lin_elem (l : Lin) {c c' : Cloud (Fin (k + 2) → ℝ)} {b b' : ℕ}
    (s : SameElem c c' b b') {f : Fin c.n → ℕ → ℝ} {f' : Fin c'.n → ℕ → ℝ} (hf : s.Agree f f') :
    s.Agree (l.apply f) (l.apply f') := C94_conv1x1 s _ _ _ _ _ hf

theorem run_elem (E : NetEnv) (hE : E.training = false) {B : NetBlock (k + 2)} (hL : B.conv.Ok)
    {cin cin' cout cout' : Cloud (Fin (k + 2) → ℝ)}
    {b b' : ℕ} (s : SameElem cin cin' b b') (t : SameElem cout cout' b b') {radius : ℝ} (hr : 0 < radius)
    (heps : 0 < E.eps) (hv : cin.Valid) (hv' : cin'.Valid) {pr : RadiusArg ℝ}
    {f : Fin cin.n → ℕ → ℝ} {f' : Fin cin'.n → ℕ → ℝ} (hf : s.Agree f f')
    (hp : ∀ x x', B.pool E cin cout pr f = .ok x → B.pool E cin' cout' pr f' = .ok x' → t.Agree x x')
    {g : Fin cout.n → ℕ → ℝ} {g' : Fin cout'.n → ℕ → ℝ}
    (h : B.run E cin cout radius pr f = .ok g) (h' : B.run E cin' cout' radius pr f' = .ok g') : t.Agree g g' := by
  unfold NetBlock.run at h h'
  split at h
  · cases h
  rename_i r hr1
  split at h
  · cases h
  rename_i x hx
  split at h'
  · cases h'
  rename_i r' hr1'
  split at h'
  · cases h'
  rename_i x' hx'
  simp only [Except.ok.injEq] at h h'
  subst h h'
  have a1 := NetConv.call_elem E hL s t hr heps hv hv'
    (bnAct_elem E hE B.bn1 s (lin_elem B.down s (bnAct_elem E hE B.bn0 s hf))) hr1 hr1'
  have a2 := lin_elem B.up t (bnAct_elem E hE B.bn2 t a1)
  have a3 := hp x x' hx hx'
  intro i
  funext ch
  dsimp only
  rw [a2 i]
  congr 1
  cases B.proj with
  | none => exact congrFun (a3 i) ch
  | some q => exact congrFun (lin_elem q.2 t (bnAct_elem E hE q.1 t a3) i) ch

theorem run_elem_strided (E : NetEnv) (hE : E.training = false) {B : NetBlock (k + 2)} (hL : B.conv.Ok)
    (hst : B.strided = true) {cin cin' cout cout' : Cloud (Fin (k + 2) → ℝ)}
    {b b' : ℕ} (s : SameElem cin cin' b b') (t : SameElem cout cout' b b') {radius : ℝ} (hr : 0 < radius)
    (heps : 0 < E.eps) (hv : cin.Valid) (hv' : cin'.Valid)
    {f : Fin cin.n → ℕ → ℝ} {f' : Fin cin'.n → ℕ → ℝ} (hf : s.Agree f f')
    {g : Fin cout.n → ℕ → ℝ} {g' : Fin cout'.n → ℕ → ℝ}
    (h : B.run E cin cout radius (.vec [radius]) f = .ok g)
    (h' : B.run E cin' cout' radius (.vec [radius]) f' = .ok g') : t.Agree g g' := by
  refine run_elem E hE hL s t hr heps hv hv' hf ?_ h h'
  intro x x' hx hx'
  unfold NetBlock.pool at hx hx'
  rw [if_pos hst] at hx hx'
  split at hx
  · cases hx
  rename_i o ho
  split at hx'
  · cases hx'
  rename_i o' ho'
  simp only [Except.ok.injEq] at hx hx'
  subst hx hx'
  have := C94_local_pooling s t .max _ _ _ _ (.vec [radius]) (fun _ => radius) rfl ⟨hv, hr, fun _ => le_rfl, heps⟩
    ⟨hv', hr, fun _ => le_rfl, heps⟩ f f' hf o o' ho ho'
  intro i
  funext ch
  dsimp only
  rw [this i]

theorem run_elem_plain (E : NetEnv) (hE : E.training = false) {B : NetBlock (k + 2)} (hL : B.conv.Ok)
    (hst : B.strided = false) {c c' : Cloud (Fin (k + 2) → ℝ)}
    {b b' : ℕ} (s : SameElem c c' b b') {radius : ℝ} (hr : 0 < radius)
    (heps : 0 < E.eps) (hv : c.Valid) (hv' : c'.Valid) {pr : RadiusArg ℝ}
    {f : Fin c.n → ℕ → ℝ} {f' : Fin c'.n → ℕ → ℝ} (hf : s.Agree f f')
    {g : Fin c.n → ℕ → ℝ} {g' : Fin c'.n → ℕ → ℝ}
    (h : B.run E c c radius pr f = .ok g) (h' : B.run E c' c' radius pr f' = .ok g') : s.Agree g g' := by
  refine run_elem E hE hL s s hr heps hv hv' hf ?_ h h'
  intro x x' hx hx'
  unfold NetBlock.pool at hx hx'
  rw [if_neg (by simp [hst]), dif_pos rfl, Except.ok.injEq] at hx hx'
  subst hx hx'
  exact hf

/-- The network as built by `mymodel.__init__`: only the first block of a level
below the first is strided; positive radii. -/
structure Net40.Ok (N : Net40 (k + 2)) : Prop where
  init : N.init.Ok
  block0 : N.block0.conv.Ok ∧ N.block0.strided = false
  radius0 : 0 < N.poolRadius0 ∧ 0 < N.convRadius0
  levels : ∀ l ∈ N.levels, l.strided.conv.Ok ∧ l.strided.strided = true ∧ l.block.conv.Ok ∧
    l.block.strided = false ∧ 0 < l.poolRadius ∧ 0 < l.convRadius

theorem net40Loop_elem (E : NetEnv) (hE : E.training = false) (heps : 0 < E.eps) {b b' B B' : ℕ}
    (levels : List (Level40 (k + 2)))
    (hl : ∀ l ∈ levels, l.strided.conv.Ok ∧ l.strided.strided = true ∧ l.block.conv.Ok ∧
      l.block.strided = false ∧ 0 < l.poolRadius ∧ 0 < l.convRadius) :
    ∀ (os os' : List (CloudObj (Fin (k + 2) → ℝ))) (o o' : CloudObj (Fin (k + 2) → ℝ)) (f : Fin o.c.n → ℕ → ℝ)
    (f' : Fin o'.c.n → ℕ → ℝ) (s : SameElem o.c o'.c b b') (hf : s.Agree f f')
    (ho : ∀ p ∈ o :: os, p.c.Valid ∧ p.c.B = B) (ho' : ∀ p ∈ o' :: os', p.c.Valid ∧ p.c.B = B')
    (hos : List.Forall₂ (fun o o' : CloudObj (Fin (k + 2) → ℝ) => Nonempty (SameElem o.c o'.c b b')) os os')
    (p p' : CloudObj (Fin (k + 2) → ℝ)) (g : Fin p.c.n → ℕ → ℝ) (g' : Fin p'.c.n → ℕ → ℝ)
    (h : net40Loop E o f os levels = .ok ⟨p, g⟩) (h' : net40Loop E o' f' os' levels = .ok ⟨p', g'⟩),
    p.c.B = B ∧ p'.c.B = B' ∧ ∃ t : SameElem p.c p'.c b b', t.Agree g g' := by
  induction levels with
  | nil =>
    intro os os' o o' f f' s hf ho ho' hos p p' g g' h h'
    cases hos with
    | nil =>
      simp only [net40Loop, Except.ok.injEq] at h h'
      cases h
      cases h'
      exact ⟨(ho o (by simp)).2, (ho' o' (by simp)).2, s, hf⟩
    | cons _ _ => simp [net40Loop] at h
  | cons l ls ih =>
    intro os os' o o' f f' s hf ho ho' hos p p' g g' h h'
    cases hos with
    | nil => simp [net40Loop] at h
    | @cons q q' os os' hq hos =>
      obtain ⟨t⟩ := hq
      obtain ⟨l1, l2, l3, l4, l5, l6⟩ := hl l (by simp)
      unfold net40Loop at h h'
      split at h
      · cases h
      rename_i f1 e1
      split at h
      · cases h
      rename_i f2 e2
      split at h'
      · cases h'
      rename_i f1' e1'
      split at h'
      · cases h'
      rename_i f2' e2'
      have a1 := run_elem_strided E hE l1 l2 s t l5 heps (ho o (by simp)).1 (ho' o' (by simp)).1 hf e1 e1'
      have a2 := run_elem_plain E hE l3 l4 t l6 heps (ho q (by simp)).1 (ho' q' (by simp)).1 a1 e2 e2'
      exact ih (fun l hx => hl l (by simp [hx])) os os' q q' f2 f2' t a2 (fun p hp => ho p (by simp at hp ⊢; tauto))
        (fun p hp => ho' p (by simp at hp ⊢; tauto)) hos p p' g g' h h'

theorem net40Loop_last (E : NetEnv) (levels : List (Level40 (k + 2))) :
    ∀ (os : List (CloudObj (Fin (k + 2) → ℝ))) (o : CloudObj (Fin (k + 2) → ℝ)) (f : Fin o.c.n → ℕ → ℝ)
    (p : CloudObj (Fin (k + 2) → ℝ)) (g : Fin p.c.n → ℕ → ℝ)
    (h : net40Loop E o f os levels = .ok ⟨p, g⟩), p ∈ o :: os := by
  induction levels with
  | nil =>
    intro os o f p g h
    cases os with
    | nil =>
      simp only [net40Loop, Except.ok.injEq] at h
      cases h
      simp
    | cons _ _ => simp [net40Loop] at h
  | cons l ls ih =>
    intro os o f p g h
    cases os with
    | nil => simp [net40Loop] at h
    | cons q os =>
      unfold net40Loop at h
      split at h
      · cases h
      split at h
      · cases h
      exact List.mem_cons_of_mem _ (ih _ _ _ _ _ h)

theorem head_elem (E : NetEnv) (hE : E.training = false) (h : NetHead) {n n' : ℕ} (f : Fin n → ℕ → ℝ)
    (f' : Fin n' → ℕ → ℝ) (b : Fin n) (b' : Fin n') (hf : f' b' = f b) : h.run40 E f' b' = h.run40 E f b := by
  funext ch
  simp only [NetHead.run40, Lin.apply, conv1x1, NetEnv.dropout1, NetEnv.dropout2, NetEnv.bnAct, BNorm.apply, hE,
    Bool.false_eq_true, if_false, hf]

theorem mem_flattenRows {β : Type*} {blocks : List (List β)} {sz : List ℕ} {x : β} (h : x ∈ flattenRows blocks sz) :
    ∃ row ∈ blocks, x ∈ row := by
  unfold flattenRows at h
  rw [List.mem_flatMap] at h
  obtain ⟨r, hr, hx⟩ := h
  exact ⟨r.1, (List.of_mem_zip hr).1, List.mem_of_mem_take hx⟩

theorem flattenFeatures_const {α β : Type*} (o : CloudObj α) (blocks : List (List β)) (v : β)
    (hv : ∀ row ∈ blocks, ∀ x ∈ row, x = v) (f : Fin o.c.n → β) (h : (o.flattenFeatures blocks).1 = .ok f)
    (i : Fin o.c.n) : f i = v := by
  unfold CloudObj.flattenFeatures at h
  split at h
  · cases h
  · split at h
    · simp only [Except.ok.injEq] at h
      subst h
      obtain ⟨row, h1, h2⟩ := mem_flattenRows (List.getElem_mem (l := flattenRows blocks _) (n := (o.c.sortedIndicesBatch.symm i).val) _)
      exact hv row h1 _ h2
    · cases h

theorem hier_sizes {dev : Device} {eps : ℝ} {lower : String → String}
    {mode : String} {o : CloudObj (Fin (k + 2) → ℝ)} {rs : List ℝ} {H : Hier k ℝ}
    (hH : HierNew dev eps lower mode o (rs.map (fun r => ⟨[1], [r]⟩)) (.ok H)) :
    H.cellSizes = rs.map (fun r _ => r) := by
  rcases hH with ⟨ls, hls, he⟩ | ⟨e, _, he⟩
  swap
  · simp at he
  simp only [Except.ok.injEq] at he
  subst he
  dsimp only
  generalize o.batchShape = bs at hls
  generalize hr : (Except.ok ls : Except Err _) = r at hls
  generalize hsz : rs.map (fun r => (⟨[1], [r]⟩ : Arg ℝ)) = sz at hls
  induction hls generalizing ls rs with
  | nil o =>
    simp only [Except.ok.injEq] at hr
    subst hr
    simp at hsz
    simp [hsz]
  | fail o a as e _ => simp at hr
  | failLater o a as o' cs h e _ _ => simp at hr
  | cons o a as p cs h rest hst _ ih =>
    simp only [Except.ok.injEq] at hr
    subst hr
    cases rs with
    | nil => simp at hsz
    | cons r rs =>
      simp only [List.map_cons, List.cons.injEq] at hsz
      rw [List.map_cons, List.map_cons, ih rest rfl hsz.2]
      congr 1
      obtain ⟨rfl, _⟩ := hsz
      cases hst with
      | ok l h c hl _ _ _ =>
        simp only [completeCellSizes] at hl
        rw [if_pos (by omega)] at hl
        simp only [Nat.sub_self, List.getElem?_cons_zero, Except.ok.injEq] at hl
        subst hl
        funext d
        have : ([r] ++ List.replicate (k + 2 - 1) r) = List.replicate (k + 2) r := by
          rw [show k + 2 - 1 = k + 1 from rfl, List.singleton_append, ← List.replicate_succ]
        unfold vecOf
        dsimp only
        rw [this, List.getD_eq_getElem?_getD, List.getElem?_replicate, if_pos d.isLt]
        rfl

theorem hier_clouds {dev : Device} {eps : ℝ} (heps : 0 < eps) {lower : String → String}
    {mode : String} {o : CloudObj (Fin (k + 2) → ℝ)} (hv : o.c.Valid) {sizes : List (Arg ℝ)} {H : Hier k ℝ}
    (hH : HierNew dev eps lower mode o sizes (.ok H)) (hpos : ∀ cs ∈ H.cellSizes, ∀ d, 0 < cs d) :
    ∀ p ∈ H.clouds, p.c.Valid ∧ p.c.B = o.c.B := by
  obtain ⟨_, h2, _, _, h5, _⟩ := C31_hierarchy_well_formed dev eps heps lower mode o hv sizes H hH hpos
  generalize H.clouds = l at *
  have key : ∀ (l : List (CloudObj (Fin (k + 2) → ℝ))) (o : CloudObj (Fin (k + 2) → ℝ)), o.c.Valid →
      l.head? = some o → (l.map (·.c)).IsChain Coarsens → ∀ p ∈ l, p.c.Valid ∧ p.c.B = o.c.B := by
    intro l
    induction l with
    | nil => intro o _ h; simp at h
    | cons a t ih =>
      intro o hv h hc p hp
      simp only [List.head?_cons, Option.some.injEq] at h
      subst h
      rcases List.mem_cons.1 hp with rfl | hp
      · exact ⟨hv, rfl⟩
      · cases t with
        | nil => simp at hp
        | cons q t =>
          simp only [List.map_cons, List.isChain_cons_cons] at hc
          obtain ⟨i1, i2⟩ := ih q hc.1.valid rfl (by simpa using hc.2) p hp
          exact ⟨i1, i2.trans hc.1.batchSize⟩
  exact key l o hv h2 h5

/-! ## C97 -/

/-- Padded input as `modelnet40.py` feeds it: `B` blocks of `V` points, sizes at most `V`. -/
structure PaddedOk {α : Type*} (V : ℕ) (points : List (List α)) (sizes : List ℕ) : Prop where
  len : sizes.length = points.length
  block : ∀ b ∈ points, b.length = V
  size : ∀ s ∈ sizes, s ≤ V

/-- **C97, from the levels**: at inference the logits of element `b` are determined
by the points of this element on the levels of the hierarchy, however they were
sampled, if the features fed in are constant. -/
theorem C97_from_levels (E : NetEnv) (hE : E.training = false) (heps : 0 < E.eps) (N : Net40 (k + 2)) (hN : N.Ok)
    {H H' : Hier k ℝ} {B B' : ℕ} (hcl : ∀ p ∈ H.clouds, p.c.Valid ∧ p.c.B = B)
    (hcl' : ∀ p ∈ H'.clouds, p.c.Valid ∧ p.c.B = B') {feats feats' : List (List (ℕ → ℝ))} (v : ℕ → ℝ)
    (hc : ∀ row ∈ feats, ∀ x ∈ row, x = v) (hc' : ∀ row ∈ feats', ∀ x ∈ row, x = v) {rows rows' : List (ℕ → ℝ)}
    (h : N.logits E H feats = .ok rows) (h' : N.logits E H' feats' = .ok rows') :
    rows.length = B ∧ ∀ b b', b < B → b' < B' →
      List.Forall₂ (fun o o' : CloudObj (Fin (k + 2) → ℝ) => Nonempty (SameElem o.c o'.c b b')) H.clouds H'.clouds →
      rows'[b']? = rows[b]? := by
  unfold Net40.logits at h h'
  split at h
  swap
  · cases h
  rename_i x0 o1 os hcl1
  split at h'
  swap
  · cases h'
  rename_i x0' o1' os' hcl1'
  rw [hcl1] at hcl
  rw [hcl1'] at hcl'
  split at h
  · cases h
  rename_i f0 e0
  split at h
  · cases h
  rename_i f1 e1
  split at h
  · cases h
  rename_i f2 e2
  split at h
  · cases h
  rename_i p g e3
  split at h'
  · cases h'
  rename_i f0' e0'
  split at h'
  · cases h'
  rename_i f1' e1'
  split at h'
  · cases h'
  rename_i f2' e2'
  split at h'
  · cases h'
  rename_i p' g' e3'
  simp only [Except.ok.injEq] at h h'
  subst h h'
  have hp := (hcl p (List.mem_cons_of_mem _ (net40Loop_last E _ _ _ _ _ _ e3))).2
  refine ⟨by rw [List.length_ofFn, hp], ?_⟩
  intro b b' hb hb' hF
  rw [hcl1, hcl1', List.forall₂_cons, List.forall₂_cons] at hF
  obtain ⟨_, ⟨t⟩, hos⟩ := hF
  have v1 := (hcl o1 (by simp)).1
  have v1' := (hcl' o1' (by simp)).1
  have a0 : t.Agree f0 f0' := fun i => by
    rw [flattenFeatures_const _ _ v (fun r hr => hc r (List.mem_of_mem_take hr)) f0 e0,
      flattenFeatures_const _ _ v (fun r hr => hc' r (List.mem_of_mem_take hr)) f0' e0']
  have a1 := NetConv.call_elem E hN.init t t hN.radius0.2 heps v1 v1' a0 e1 e1'
  have a2 := run_elem_plain E hE hN.block0.1 hN.block0.2 t hN.radius0.2 heps v1 v1' a1 e2 e2'
  obtain ⟨r1, r2, u, hu⟩ := net40Loop_elem E hE heps N.levels hN.levels os os' o1 o1' f2 f2' t a2
    (fun q hq => hcl q (List.mem_cons_of_mem _ hq)) (fun q hq => hcl' q (List.mem_cons_of_mem _ hq)) hos p p' g g' e3 e3'
  have hb : b < p.c.B := by omega
  have hb' : b' < p'.c.B := by omega
  rw [List.getElem?_ofFn, List.getElem?_ofFn, dif_pos hb, dif_pos hb']
  congr 1
  refine head_elem E hE N.head _ _ ⟨b, hb⟩ ⟨b', hb'⟩ ?_
  funext ch
  rw [C94_global_pooling u .mean hb hb' g g' hu ch]

theorem net40_pos {N : Net40 (k + 2)} (hN : N.Ok) {dev : Device} {eps : ℝ} {lower : String → String} {mode : String}
    {o : CloudObj (Fin (k + 2) → ℝ)} {H : Hier k ℝ} (hH : HierNew dev eps lower mode o N.sizes (.ok H)) :
    ∀ cs ∈ H.cellSizes, ∀ d, 0 < cs d := by
  intro cs hcs d
  rw [hier_sizes hH, List.mem_map] at hcs
  obtain ⟨r, hr, rfl⟩ := hcs
  rcases List.mem_cons.1 hr with rfl | hr
  · exact hN.radius0.1
  · obtain ⟨l, hl, rfl⟩ := List.mem_map.1 hr
    exact (hN.levels l hl).2.2.2.2.1

/-- **C97**: at inference, with cell averages and constant input features, the
logits of a shape are determined by its points: they do not depend on the other
shapes of the batch, the batch size, the padding or the order of the points. -/
theorem C97_logits_of_a_shape (E : NetEnv) (hE : E.training = false) (heps : 0 < E.eps) (N : Net40 (k + 2)) (hN : N.Ok)
    (lower : String → String) (mode : String) (hm : lower mode ∈ ["average", "cell average", "cell_average"])
    {B V B' V' : ℕ} {points points' : List (List (Fin (k + 2) → ℝ))} {sizes sizes' : List ℕ}
    (hP : PaddedOk V points sizes) (hP' : PaddedOk V' points' sizes') {feats feats' : List (List (ℕ → ℝ))} (v : ℕ → ℝ)
    (hc : ∀ row ∈ feats, ∀ x ∈ row, x = v) (hc' : ∀ row ∈ feats', ∀ x ∈ row, x = v) {rows rows' : List (ℕ → ℝ)}
    (h : N.Call E lower mode B V points feats sizes (.ok rows))
    (h' : N.Call E lower mode B' V' points' feats' sizes' (.ok rows')) :
    rows.length = points.length ∧ ∀ b b', b < points.length → b' < points'.length →
      ((points.getD b []).take (sizes.getD b 0)).Perm ((points'.getD b' []).take (sizes'.getD b' 0)) →
      rows'[b']? = rows[b]? := by
  unfold Net40.Call at h h'
  split at h
  · cases h
  rename_i o ho
  split at h'
  · cases h'
  rename_i o' ho'
  rcases h with ⟨e, _, he⟩ | ⟨H, hH, h⟩
  · cases he
  rcases h' with ⟨e, _, he⟩ | ⟨H', hH', h'⟩
  · cases he
  obtain ⟨p1, p2, p3, _, _, _, _, _, p8⟩ := newPadded_spec hP.len hP.block hP.size ho
  obtain ⟨q1, q2, q3, _, _, _, _, _, q8⟩ := newPadded_spec hP'.len hP'.block hP'.size ho'
  have key := C97_from_levels E hE heps N hN (hier_clouds heps p3 hH (net40_pos hN hH))
    (hier_clouds heps q3 hH' (net40_pos hN hH')) v hc hc' h.symm h'.symm
  refine ⟨by rw [key.1, p2, p1], ?_⟩
  intro b b' hb hb' hperm
  rw [← p8, ← q8] at hperm
  obtain ⟨s⟩ := SameElem.ofPerm hperm
  exact key.2 b b' (by omega) (by omega) (C94_hierarchy heps hm p3 q3 s N.sizes H H' hH hH' (net40_pos hN hH)).2

/-! ### The networks return -/

theorem flattenRows_length {α : Type*} (V : ℕ) (blocks : List (List α)) (sizes : List ℕ)
    (hlen : blocks.length = sizes.length) (hV : ∀ b ∈ blocks, b.length = V) (hs : ∀ s ∈ sizes, s ≤ V) :
    (flattenRows blocks sizes).length = sizes.sum := by
  rw [flattenRows_eq, List.length_flatten, map_length_zipWith_take V blocks sizes hlen hV hs]

theorem members_sum {α : Type*} (c : Cloud α) (hv : c.Valid) :
    ((List.range c.B).map (fun b => (c.members b).length)).sum = c.n := by
  have h := congrArg List.length (argsortAsc_flatMap c.batch c.B hv)
  rw [List.length_ofFn, List.length_flatMap] at h
  exact h.symm

theorem members_length {α : Type*} (c : Cloud α) (b : ℕ) : (c.members b).length = c.countIn b := by
  rw [Cloud.countIn, card_filter_eq]
  rfl

theorem flattenFeatures_returns {α β : Type*} (o : CloudObj α) (hok : o.SizesOk) (hsh : o.ShapeOk)
    (hv : o.c.Valid) (hne : o.c.NoEmpty) (V : ℕ) (blocks : List (List β)) (hlen : blocks.length = o.c.B)
    (hV : ∀ b ∈ blocks, b.length = V) (hs : ∀ b < o.c.B, o.c.countIn b ≤ V) :
    ∃ f, (o.flattenFeatures blocks).1 = .ok f := by
  obtain ⟨sh, h1, h2⟩ := CloudObj.getSizes_success o hok hsh hv hne
  unfold CloudObj.flattenFeatures
  split
  · rename_i e o' heq
    rw [heq] at h1
    cases h1
  · rename_i sh3 sz3 o' heq
    rw [heq] at h1
    simp only [Except.ok.injEq, Prod.mk.injEq] at h1
    obtain ⟨rfl, rfl⟩ := h1
    rw [dif_pos]
    · exact ⟨_, rfl⟩
    · rw [flattenRows_length V, members_sum o.c hv]
      · simpa using hlen
      · exact hV
      · intro s hs'
        simp only [List.mem_map, List.mem_range] at hs'
        obtain ⟨b, hb, rfl⟩ := hs'
        rw [members_length]
        exact hs b hb

theorem NetConv.call_returns (E : NetEnv) (hdev : E.dev = .gpu) (heps : 0 < E.eps) {L : NetConv (k + 2)} (hL : L.Ok)
    {cin cout : Cloud (Fin (k + 2) → ℝ)} {radius : ℝ} (hr : 0 < radius) (hv : cin.Valid) (hv' : cout.Valid)
    (hB : cout.B = cin.B) (hn : 0 < cin.n) (hn' : 0 < cout.n) (f : Fin cin.n → ℕ → ℝ) :
    ∃ g, L.call E cin cout radius f = .ok g := by
  have ok : LayerOk cin cout radius E.eps := ⟨hv, hr, heps⟩
  have hb : ∀ i, cout.batch i < cin.B := fun i => by rw [← hB]; exact hv' i
  cases L with
  | mc L =>
    unfold NetConv.call
    rw [hdev]
    exact C41_mcconv_returns _ _ _ L cin cout radius _ ok hn' hn hb f
  | pc L =>
    unfold NetConv.call
    rw [hdev]
    exact C41_pointconv_returns _ _ _ L cin cout radius _ ok hn' hn hb f
  | kp L =>
    unfold NetConv.call
    rw [hdev]
    obtain ⟨out, ho⟩ := C41_kpconv_returns E.eps L cin cout radius ok none hL.1 hL.2.1 hL.2.2 hn' hb f
    dsimp only
    rw [ho]
    dsimp only
    rw [if_pos rfl]
    exact ⟨_, rfl⟩

theorem run_returns (E : NetEnv) (hdev : E.dev = .gpu) (heps : 0 < E.eps) {B : NetBlock (k + 2)} (hL : B.conv.Ok)
    {cin cout : Cloud (Fin (k + 2) → ℝ)} {radius : ℝ} (hr : 0 < radius) (hv : cin.Valid) (hv' : cout.Valid)
    (hB : cout.B = cin.B) (hn : 0 < cin.n) (hn' : 0 < cout.n) {pr : RadiusArg ℝ}
    (hp : (B.strided = true ∧ ∃ r, 0 < r ∧ pr = .vec [r]) ∨ (B.strided = false ∧ cout.n = cin.n)) (f : Fin cin.n → ℕ → ℝ) :
    ∃ g, B.run E cin cout radius pr f = .ok g := by
  obtain ⟨r, h1⟩ := NetConv.call_returns E hdev heps hL hr hv hv' hB hn hn'
    (E.bnAct B.bn1 (B.down.apply (E.bnAct B.bn0 f)))
  have h2 : ∃ s, B.pool E cin cout pr f = .ok s := by
    unfold NetBlock.pool
    rcases hp with ⟨hs, r, hr, rfl⟩ | ⟨hs, hc⟩
    · rw [if_pos hs, hdev]
      obtain ⟨out, ho⟩ := C44_returns .max E.eps cin cout (.vec [r]) (fun _ => r) rfl ⟨hv, hr, fun _ => le_rfl, heps⟩
        hn' (fun i => by rw [← hB]; exact hv' i) f
      rw [ho]
      exact ⟨_, rfl⟩
    · rw [if_neg (by simp [hs]), dif_pos hc]
      exact ⟨_, rfl⟩
  obtain ⟨s, h2⟩ := h2
  unfold NetBlock.run
  rw [h1]
  dsimp only
  rw [h2]
  exact ⟨_, rfl⟩

/-- A level of a hierarchy over a batch without empty elements. -/
structure LevelOk {α : Type*} (B : ℕ) (o : CloudObj α) : Prop where
  valid : o.c.Valid
  batch : o.c.B = B
  n : 0 < o.c.n
  sizes : o.SizesOk
  shape : o.ShapeOk
  noEmpty : o.c.NoEmpty

theorem net40Loop_returns (E : NetEnv) (hdev : E.dev = .gpu) (heps : 0 < E.eps) {B : ℕ}
    (levels : List (Level40 (k + 2)))
    (hl : ∀ l ∈ levels, l.strided.conv.Ok ∧ l.strided.strided = true ∧ l.block.conv.Ok ∧
      l.block.strided = false ∧ 0 < l.poolRadius ∧ 0 < l.convRadius) :
    ∀ (os : List (CloudObj (Fin (k + 2) → ℝ))) (o : CloudObj (Fin (k + 2) → ℝ)) (f : Fin o.c.n → ℕ → ℝ)
    (ho : ∀ p ∈ o :: os, LevelOk B p) (hlen : os.length = levels.length),
    ∃ x, net40Loop E o f os levels = .ok x := by
  induction levels with
  | nil =>
    intro os o f ho hlen
    rw [List.length_nil, List.length_eq_zero_iff] at hlen
    subst hlen
    exact ⟨_, rfl⟩
  | cons l ls ih =>
    intro os o f ho hlen
    cases os with
    | nil => simp at hlen
    | cons q os =>
      obtain ⟨l1, l2, l3, l4, l5, l6⟩ := hl l (by simp)
      have a := ho o (by simp)
      have b := ho q (by simp)
      obtain ⟨f1, e1⟩ := run_returns E hdev heps l1 l5 a.valid b.valid (b.batch.trans a.batch.symm) a.n b.n
        (Or.inl ⟨l2, _, l5, rfl⟩) f
      obtain ⟨f2, e2⟩ := run_returns E hdev heps l3 l6 b.valid b.valid rfl b.n b.n (pr := .vec [])
        (Or.inr ⟨l4, rfl⟩) f1
      unfold net40Loop
      rw [e1]
      dsimp only
      rw [e2]
      exact ih (fun l hx => hl l (by simp [hx])) os q f2 (fun p hp => ho p (by simp at hp ⊢; tauto))
        (by simpa using hlen)

theorem levels_objs {dev : Device} {eps : ℝ} {lower : String → String}
    {mode : String} {bs : Option (List ℕ)} {o : CloudObj (Fin (k + 2) → ℝ)} {sizes : List (Arg ℝ)}
    {ls : List (CloudObj (Fin (k + 2) → ℝ) × (Fin (k + 2) → ℝ) × Nbh k ℝ)}
    (hls : Levels dev eps lower mode bs o sizes (.ok ls)) :
    ∀ p ∈ ls.map (·.1), p.SizesOk ∧ p.ShapeOk := by
  generalize hr : (Except.ok ls : Except Err _) = r at hls
  induction hls generalizing ls with
  | nil o =>
    simp only [Except.ok.injEq] at hr
    subst hr
    simp
  | fail o a as e _ => simp at hr
  | failLater o a as o' cs h e _ _ => simp at hr
  | cons o a as p cs h rest hst _ ih =>
    simp only [Except.ok.injEq] at hr
    subst hr
    rw [List.map_cons, List.forall_mem_cons]
    refine ⟨?_, ih rfl⟩
    cases hst with
    | ok l h c hl _ _ hb =>
      dsimp only
      unfold CloudObj.setBatchShape at hb ⊢
      cases bs with
      | none => exact ⟨fun s hs => (by cases hs), fun s hs => (by cases hs)⟩
      | some sh =>
        dsimp only at hb ⊢
        split at hb
        · rename_i h1
          rw [if_pos h1]
          refine ⟨fun s hs => (by cases hs), fun s hs => ?_⟩
          simp only [CloudObj.ofCloud, Option.some.injEq] at hs
          subst hs
          exact h1
        · cases hb

theorem members_pos {α : Type*} {c : Cloud α} (b : ℕ) : 0 < c.countIn b ↔ ∃ i, c.batch i = b := by
  rw [Cloud.countIn, Finset.card_pos]
  constructor
  · rintro ⟨i, hi⟩
    exact ⟨i, (Finset.mem_filter.1 hi).2⟩
  · rintro ⟨i, hi⟩
    exact ⟨i, Finset.mem_filter.2 ⟨Finset.mem_univ _, hi⟩⟩

/-- All levels below the input. -/
theorem hier_levelOk {dev : Device} {eps : ℝ} (heps : 0 < eps) {lower : String → String}
    {mode : String} {o : CloudObj (Fin (k + 2) → ℝ)} (hv : o.c.Valid) (hne : o.c.NoEmpty) (hB : 0 < o.c.B)
    {sizes : List (Arg ℝ)} {H : Hier k ℝ}
    (hH : HierNew dev eps lower mode o sizes (.ok H)) (hpos : ∀ cs ∈ H.cellSizes, ∀ d, 0 < cs d) :
    ∃ os, H.clouds = o :: os ∧ os.length = sizes.length ∧ ∀ p ∈ os, LevelOk o.c.B p ∧ ∀ b, p.c.countIn b ≤ o.c.countIn b := by
  have h1 := hier_clouds heps hv hH hpos
  have h2 := C31_any_two_levels dev eps heps lower mode o hv sizes H hH hpos
  have h3 := (C31_hierarchy_well_formed dev eps heps lower mode o hv sizes H hH hpos).1
  rcases hH with ⟨ls, hls, he⟩ | ⟨e, _, he⟩
  swap
  · simp at he
  simp only [Except.ok.injEq] at he
  subst he
  dsimp only [Hier.len] at h1 h2 h3 ⊢
  rw [List.length_cons] at h3
  refine ⟨_, rfl, by omega, ?_⟩
  intro p hp
  have hs := levels_objs hls p hp
  obtain ⟨v, hb⟩ := h1 p (List.mem_cons_of_mem _ hp)
  rw [List.map_cons, List.pairwise_cons] at h2
  obtain ⟨_, h4⟩ := h2.1 p.c (List.mem_map_of_mem hp)
  have hne' : p.c.NoEmpty := by
    intro b hb'
    exact (members_pos b).1 ((h4 b).2 ((members_pos b).2 (hne b (by omega))))
  refine ⟨⟨v, hb, ?_, hs.1, hs.2, hne'⟩, fun b => (h4 b).1⟩
  obtain ⟨i, _⟩ := hne' 0 (by omega)
  exact i.pos

theorem newPadded_returns {α : Type*} {V : ℕ} {blocks : List (List α)} {sizes : List ℕ} (hP : PaddedOk V blocks sizes) :
    ∃ o, CloudObj.newPadded [blocks.length] V blocks (some sizes) (some blocks.length) = .ok o := by
  unfold CloudObj.newPadded
  simp only [Option.getD_some, List.prod_cons, List.prod_nil, mul_one, ne_eq, not_true_eq_false, if_false]
  rw [dif_pos]
  · exact ⟨_, rfl⟩
  · rw [repeatRange_length, flattenRows_length V blocks sizes hP.len.symm hP.block hP.size]

theorem padded_countIn {α : Type*} {V B : ℕ} {blocks : List (List α)} {sizes : List ℕ} (hP : PaddedOk V blocks sizes)
    {o : CloudObj α} (h : CloudObj.newPadded [blocks.length] V blocks (some sizes) (some B) = .ok o) (b : ℕ) :
    o.c.countIn b = sizes.getD b 0 := by
  obtain ⟨_, _, _, _, _, _, _, _, h8⟩ := newPadded_spec hP.len hP.block hP.size h
  have h9 := congrArg List.length (h8 b)
  rw [List.length_map, members_length, List.length_take] at h9
  rw [h9]
  by_cases hb : b < blocks.length
  · have hb' : b < sizes.length := by rw [hP.len]; exact hb
    rw [List.getD_eq_getElem?_getD, List.getD_eq_getElem?_getD, List.getElem?_eq_getElem hb, List.getElem?_eq_getElem hb']
    simp only [Option.getD_some]
    rw [hP.block _ (List.getElem_mem _)]
    exact min_eq_left (hP.size _ (List.getElem_mem _))
  · have hb' : ¬ b < sizes.length := by rw [hP.len]; exact hb
    rw [List.getD_eq_getElem?_getD, List.getElem?_eq_none (by omega)]
    simp

/-- **C97, no exception**: on the GPU, for a non-empty batch of non-empty shapes
with features of the same shape as the points, the network has a result and no
possible result is an exception. -/
theorem C97_returns (E : NetEnv) (hdev : E.dev = .gpu) (heps : 0 < E.eps) (N : Net40 (k + 2)) (hN : N.Ok)
    (lower : String → String) (mode : String)
    (hm : lower mode ∈ ["poisson", "poisson disk", "poisson_disk", "average", "cell average", "cell_average"])
    {V : ℕ} {points : List (List (Fin (k + 2) → ℝ))} {sizes : List ℕ}
    (hP : PaddedOk V points sizes) (hne : ∀ s ∈ sizes, 0 < s) (hB : points ≠ []) {feats : List (List (ℕ → ℝ))}
    (hf : feats.length = points.length) (hfV : ∀ row ∈ feats, row.length = V) :
    (∃ rows, N.Call E lower mode points.length V points feats sizes (.ok rows)) ∧
    ∀ e, ¬ N.Call E lower mode points.length V points feats sizes (.error e) := by
  obtain ⟨o, ho⟩ := newPadded_returns hP
  obtain ⟨_, p2, p3, p4, _, _, _, _, p8⟩ := newPadded_spec hP.len hP.block hP.size ho
  have hBpos : 0 < points.length := List.length_pos_iff.2 hB
  have hno : o.c.NoEmpty := by
    intro b hb
    rw [← members_pos, padded_countIn hP ho, List.getD_eq_getElem?_getD,
      List.getElem?_eq_getElem (by rw [hP.len, ← p2]; exact hb)]
    exact hne _ (List.getElem_mem _)
  have hn : 0 < o.c.n := by
    obtain ⟨i, _⟩ := hno 0 (by omega)
    exact i.pos
  have hhier := C31_constructor_succeeds E.eps heps lower mode hm o p3 hn (by
    intro sh hsh
    rw [p4, Option.some.injEq] at hsh
    rw [← hsh, p2]
    simp) N.sizes (by
    intro a ha
    obtain ⟨r, hr, rfl⟩ := List.mem_map.1 ha
    refine ⟨rfl, le_rfl, by simp, ?_⟩
    intro v hv
    simp only [List.mem_singleton] at hv
    subst hv
    rcases List.mem_cons.1 hr with rfl | hr
    · exact hN.radius0.1
    · obtain ⟨l, hl, rfl⟩ := List.mem_map.1 hr
      exact (hN.levels l hl).2.2.2.2.1)
  rw [← hdev] at hhier
  have key : ∀ H, HierNew E.dev E.eps lower mode o N.sizes (.ok H) → ∃ rows, N.logits E H feats = .ok rows := by
    intro H hH
    obtain ⟨os, hc, hlen, hos⟩ := hier_levelOk heps p3 hno (by omega) hH (net40_pos hN hH)
    unfold Net40.logits
    rw [hc]
    cases os with
    | nil => simp [Net40.sizes] at hlen
    | cons o1 os =>
      dsimp only
      have h1 := hos o1 (by simp)
      have hle : feats.length ≤ o1.c.n := by
        rw [hf, ← p2, ← h1.1.batch, ← members_sum o1.c h1.1.valid]
        have : ((List.range o1.c.B).map (fun b => 1)).sum ≤
            ((List.range o1.c.B).map (fun b => (o1.c.members b).length)).sum := by
          apply List.sum_le_sum
          intro b hb
          rw [members_length]
          exact (members_pos b).2 (h1.1.noEmpty b (List.mem_range.1 hb))
        simpa using this
      obtain ⟨f0, e0⟩ := flattenFeatures_returns o1 h1.1.sizes h1.1.shape h1.1.valid h1.1.noEmpty V feats
        (by rw [h1.1.batch, p2, hf]) hfV (by
          intro b hb
          refine (h1.2 b).trans ?_
          rw [padded_countIn hP ho, List.getD_eq_getElem?_getD,
            List.getElem?_eq_getElem (by rw [hP.len, ← p2, ← h1.1.batch]; exact hb)]
          exact hP.size _ (List.getElem_mem _))
      have e0' : net40Init o1 feats = .ok f0 := by
        unfold net40Init
        rw [List.take_of_length_le hle, e0]
      obtain ⟨f1, e1⟩ := NetConv.call_returns E hdev heps hN.init hN.radius0.2 h1.1.valid h1.1.valid rfl h1.1.n h1.1.n f0
      obtain ⟨f2, e2⟩ := run_returns E hdev heps hN.block0.1 hN.radius0.2 h1.1.valid h1.1.valid rfl h1.1.n h1.1.n
        (pr := .vec []) (Or.inr ⟨hN.block0.2, rfl⟩) f1
      obtain ⟨x, e3⟩ := net40Loop_returns E hdev heps N.levels hN.levels os o1 f2 (fun p hp => (hos p hp).1)
        (by simpa [Net40.sizes] using hlen)
      rw [e0']
      dsimp only
      rw [e1]
      dsimp only
      rw [e2]
      dsimp only
      rw [e3]
      exact ⟨_, rfl⟩
  unfold Net40.Call
  rw [ho]
  dsimp only
  constructor
  · obtain ⟨H, hH⟩ := hhier.1
    obtain ⟨rows, hr⟩ := key H hH
    exact ⟨rows, Or.inr ⟨H, hH, hr.symm⟩⟩
  · rintro e (⟨e', h1, _⟩ | ⟨H, hH, h1⟩)
    · exact hhier.2 e' h1
    · obtain ⟨rows, hr⟩ := key H hH
      rw [hr] at h1
      cases h1

/-- A cloud of three points, two of them in one cell. -/
abbrev netWitness : Grid 2 ℚ :=
  ⟨{ n := 3, B := 1, pts := ![![0, 0], ![0, 1 / 10], ![5, 5]], batch := fun _ => 0 }, fun _ => 1, 1 / 1000⟩

/-- **C99, negative**: the first convolution of the network takes
the input features for features of the points of the first level (the batch axis
is cut instead of the point axis, and the features are flattened with the sizes of
that level).  With the coordinates as features, a sample can get the coordinates of
a point five cells away. -/
theorem C99_input_features_false : ¬ ∀ (g : Grid 2 ℚ), g.c.Valid → g.c.B = 1 → (∀ d, g.cs d = 1) → 0 < g.eps →
    ∀ f, net40Init (CloudObj.ofCloud (cellAverage g 1)) [List.ofFn g.c.pts] = .ok f →
    ∀ i d, |f i d - (cellAverage g 1).pts i d| ≤ 1 := by
  intro h
  have h1 := h netWitness (by decide) rfl (fun _ => rfl) (by decide +kernel)
  have h2 : ∃ f, net40Init (CloudObj.ofCloud (cellAverage netWitness 1)) [List.ofFn netWitness.c.pts] = .ok f ∧
      ¬ ∀ i d, |f i d - (cellAverage netWitness 1).pts i d| ≤ 1 := by
    have h3 : (match net40Init (CloudObj.ofCloud (cellAverage netWitness 1)) [List.ofFn netWitness.c.pts] with
        | .ok f => decide (¬ ∀ i d, |f i d - (cellAverage netWitness 1).pts i d| ≤ 1)
        | .error _ => false) = true := by decide +kernel
    split at h3
    · rename_i f hf
      exact ⟨f, hf, by simpa using h3⟩
    · cases h3
  obtain ⟨f, hf, hn⟩ := h2
  exact hn (h1 f hf)

/-! ### Example -/

/-- A normalisation. -/
noncomputable def exNorm : BNorm := ⟨fun _ => 1, fun _ => 0, fun _ => 0, fun _ => 1, 1 / 1000⟩
/-- A dense layer. -/
def exLin : Lin := ⟨2, fun i j => i + j, fun _ => 1⟩
/-- A convolution. -/
def exConv : NetConv 2 := .mc ⟨1, 2, 1, [⟨8, fun _ _ _ => 1, fun _ _ => 0⟩], fun _ _ _ => 1⟩
/-- A block. -/
noncomputable def exBlock (strided : Bool) : NetBlock 2 := ⟨exNorm, exLin, exNorm, exConv, exNorm, exLin, strided, some (exNorm, exLin)⟩
/-- A network with two levels. -/
noncomputable def exNet40 : Net40 2 :=
  ⟨exConv, exBlock false, 1 / 10, 1 / 5, [⟨exBlock true, exBlock false, 1 / 5, 2 / 5⟩], ⟨exNorm, exLin, exNorm, exLin⟩⟩
/-- Inference on the GPU. -/
noncomputable def exEnv : NetEnv :=
  ⟨fun x => x, fun x => max x 0, fun x => max x 0, -1000, .gpu, 1 / 1000, false, fun _ f => f, fun _ f => f⟩
/-- Two shapes with three and two points; the second row of the second shape is padding. -/
def exShapes : List (List (Fin 2 → ℝ)) :=
  [[![0, 0], ![0, 1], ![1, 0]], [![0, 0], ![2, 0], ![0, 0]]]

/-- The second shape with its points in the other order. -/
def exShape : List (List (Fin 2 → ℝ)) := [[![2, 0], ![0, 0]]]

theorem exNet40_ok : exNet40.Ok := by
  refine ⟨trivial, ⟨trivial, rfl⟩, ⟨?_, ?_⟩, ?_⟩
  · norm_num [exNet40]
  · norm_num [exNet40]
  · intro l hl
    simp only [exNet40, List.mem_singleton] at hl
    subst hl
    exact ⟨trivial, rfl, trivial, rfl, by norm_num, by norm_num⟩

/-- The hypotheses of C97 are met: the second shape alone, with its points in the
other order, gets the logits it has in the batch. -/
example : ∃ rows rows', exNet40.Call exEnv id "average" 2 3 exShapes (List.replicate 2 (List.replicate 3 (fun _ => 1))) [3, 2]
      (.ok rows) ∧
    exNet40.Call exEnv id "average" 1 2 exShape [List.replicate 2 (fun _ => 1)] [2] (.ok rows') ∧
    rows.length = 2 ∧ rows'[0]? = rows[1]? := by
  have hP : PaddedOk 3 exShapes [3, 2] := ⟨rfl, by simp [exShapes], by simp⟩
  have hP' : PaddedOk 2 exShape [2] := ⟨rfl, by simp [exShape], by simp⟩
  have he : 0 < exEnv.eps := by norm_num [exEnv]
  obtain ⟨rows, h⟩ := (C97_returns exEnv rfl he exNet40 exNet40_ok id "average" (by simp) hP (by simp) (by simp [exShapes])
    (feats := List.replicate 2 (List.replicate 3 (fun _ => 1))) rfl (by simp)).1
  obtain ⟨rows', h'⟩ := (C97_returns exEnv rfl he exNet40 exNet40_ok id "average" (by simp) hP' (by simp) (by simp [exShape])
    (feats := [List.replicate 2 (fun _ => 1)]) rfl (by simp)).1
  have key := C97_logits_of_a_shape exEnv rfl he exNet40 exNet40_ok id "average" (by simp) hP hP' (fun _ => 1)
    (by simp) (by simp) h h'
  refine ⟨rows, rows', h, h', key.1, key.2 1 0 (by simp [exShapes]) (by simp [exShape]) ?_⟩
  simp only [exShapes, exShape, List.getD_cons_succ, List.getD_cons_zero, List.take_succ_cons, List.take_zero]
  exact List.Perm.swap _ _ _

end
end PC
