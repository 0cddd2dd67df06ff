import Verif.Props.Hierarchy

/-!
# C112: reading a hierarchy

`PointHierarchy.get_points()`, `get_sizes()` and `set_batch_shape()` call the method of
the same name of every level, and a user also has the levels themselves
(`hierarchy[i]`).  All these calls store something in the levels (sizes, the function
that arranges the points, the batch shape).  The theorems are about the values returned
after an arbitrary history of such calls, whether they returned or raised.
-/

set_option linter.unusedSectionVars false

namespace PC

section
variable {K : Type*} [Field K] [LinearOrder K] [IsStrictOrderedRing K] [FloorRing K] {k : ℕ}

/-- A method call on a hierarchy, or on its level `i` (PointHierarchy.py:100-157,
184-185). -/
inductive HCall
  | getPadded (maxNumPoints : Option ℕ)
  | getId (id : ℤ)
  | getSizes
  | setBatchShape (shape : Option (List ℕ))
  | level (i : ℕ) (call : CloudObj.Call)

/-- The hierarchy after the call. -/
def Hier.after (H : Hier k K) : HCall → Hier k K
  | .getPadded m => (H.getPointsPadded m).2
  | .getId _ => H
  | .getSizes => H.getSizes.2
  | .setBatchShape s => (H.setBatchShape s).2
  | .level i c => { H with clouds := H.clouds.modify i (·.after c) }

/-- The hierarchy after a history of calls. -/
def Hier.afterAll (H : Hier k K) (hist : List HCall) : Hier k K := hist.foldl Hier.after H

/-- The call does not ask a level itself for a number of rows. -/
def HCall.NoLimit : HCall → Prop
  | .level _ c => c.limit = none
  | _ => True

/-- The levels are clouds of the list `cs` after some calls, none of which asked for a
number of rows. -/
def Hier.Read (H : Hier k K) (cs : List (Cloud (Fin (k + 2) → K))) : Prop :=
  ∃ L, H.LevelsFrom L ∧ L.map Prod.fst = cs ∧ ∀ p ∈ L, ∀ c ∈ p.2, c.limit = none

theorem afterAll_concat {α : Type*} [Zero α] (o : CloudObj α) (h : List CloudObj.Call) (c : CloudObj.Call) :
    (o.afterAll h).after c = o.afterAll (h ++ [c]) := by
  simp [CloudObj.afterAll, List.foldl_append]

theorem loopAll_after {β α : Type*} [Zero α] (f : CloudObj α → Except Err β × CloudObj α) (call : CloudObj.Call)
    (hcall : call.limit = none) (hf : ∀ o, (f o).2 = o.after call) (L : List (Cloud α × List CloudObj.Call))
    (hL : ∀ p ∈ L, ∀ c ∈ p.2, c.limit = none) :
    ∃ L' : List (Cloud α × List CloudObj.Call), (Hier.loopAll f (L.map (fun p => (CloudObj.ofCloud p.1).afterAll p.2))).2 =
        L'.map (fun p => (CloudObj.ofCloud p.1).afterAll p.2) ∧
      L'.map Prod.fst = L.map Prod.fst ∧ ∀ p ∈ L', ∀ c ∈ p.2, c.limit = none := by
  induction L with
  | nil => exact ⟨[], rfl, rfl, by simp⟩
  | cons p L ih =>
    obtain ⟨L', h1, h2, h3⟩ := ih (fun p hp => hL p (by simp [hp]))
    have hp := hL p (by simp)
    have hp' : ∀ c ∈ p.2 ++ [call], c.limit = none := by
      intro c hc
      rcases List.mem_append.1 hc with h | h
      · exact hp c h
      · rw [List.mem_singleton.1 h]; exact hcall
    rw [List.map_cons]
    unfold Hier.loopAll
    have e := hf ((CloudObj.ofCloud p.1).afterAll p.2)
    rw [afterAll_concat] at e
    cases hfo : f ((CloudObj.ofCloud p.1).afterAll p.2) with
    | mk r o' =>
      rw [hfo] at e
      dsimp only at e
      subst e
      cases r with
      | error x =>
        refine ⟨(p.1, p.2 ++ [call]) :: L, rfl, rfl, ?_⟩
        intro q hq
        rcases List.mem_cons.1 hq with rfl | hq
        · exact hp'
        · exact hL q (by simp [hq])
      | ok b =>
        refine ⟨(p.1, p.2 ++ [call]) :: L', ?_, by simp [h2], ?_⟩
        · dsimp only
          split
          · rename_i e os' heq
            rw [heq] at h1
            dsimp only at h1 ⊢
            rw [h1]
            rfl
          · rename_i bs os' heq
            rw [heq] at h1
            dsimp only at h1 ⊢
            rw [h1]
            rfl
        · intro q hq
          rcases List.mem_cons.1 hq with rfl | hq
          · exact hp'
          · exact h3 q hq

theorem modify_after {α : Type*} [Zero α] (call : CloudObj.Call) (hcall : call.limit = none)
    (L : List (Cloud α × List CloudObj.Call)) (hL : ∀ p ∈ L, ∀ c ∈ p.2, c.limit = none) (i : ℕ) :
    ∃ L' : List (Cloud α × List CloudObj.Call), (L.map (fun p => (CloudObj.ofCloud p.1).afterAll p.2)).modify i (·.after call) =
        L'.map (fun p => (CloudObj.ofCloud p.1).afterAll p.2) ∧
      L'.map Prod.fst = L.map Prod.fst ∧ ∀ p ∈ L', ∀ c ∈ p.2, c.limit = none := by
  induction L generalizing i with
  | nil => exact ⟨[], by cases i <;> rfl, rfl, by simp⟩
  | cons p L ih =>
    have hp := hL p (by simp)
    cases i with
    | zero =>
      refine ⟨(p.1, p.2 ++ [call]) :: L, ?_, rfl, ?_⟩
      · simp [afterAll_concat]
      · intro q hq
        rcases List.mem_cons.1 hq with rfl | hq
        · intro c hc
          rcases List.mem_append.1 hc with h | h
          · exact hp c h
          · rw [List.mem_singleton.1 h]; exact hcall
        · exact hL q (by simp [hq])
    | succ i =>
      obtain ⟨L', h1, h2, h3⟩ := ih (fun p hp => hL p (by simp [hp])) i
      refine ⟨p :: L', ?_, by simp [h2], ?_⟩
      · simp only [List.map_cons, List.modify_succ_cons, h1]
      · intro q hq
        rcases List.mem_cons.1 hq with rfl | hq
        · exact hp
        · exact h3 q hq

theorem Hier.Read.after {H : Hier k K} {cs : List (Cloud (Fin (k + 2) → K))} (h : H.Read cs) {c : HCall} (hc : c.NoLimit) :
    (H.after c).Read cs := by
  obtain ⟨clouds, a, b, d⟩ := H
  obtain ⟨L, h1, h2, h3⟩ := h
  unfold Hier.LevelsFrom at h1
  dsimp only at h1
  subst h1
  cases c with
  | getId id => exact ⟨L, rfl, h2, h3⟩
  | getPadded m =>
    obtain ⟨L', e1, e2, e3⟩ := loopAll_after (fun o => o.getPointsPadded none) (.getPadded none) rfl (fun _ => rfl) L h3
    exact ⟨L', e1, e2.trans h2, e3⟩
  | getSizes =>
    obtain ⟨L', e1, e2, e3⟩ := loopAll_after (fun o => o.getSizes) .getSizes rfl (fun _ => rfl) L h3
    exact ⟨L', e1, e2.trans h2, e3⟩
  | setBatchShape s =>
    obtain ⟨L', e1, e2, e3⟩ := loopAll_after (fun o => o.setBatchShape s) (.setBatchShape s) rfl (fun _ => rfl) L h3
    exact ⟨L', e1, e2.trans h2, e3⟩
  | level i c =>
    obtain ⟨L', e1, e2, e3⟩ := modify_after c hc L h3 i
    exact ⟨L', e1, e2.trans h2, e3⟩

theorem Hier.Read.afterAll {H : Hier k K} {cs : List (Cloud (Fin (k + 2) → K))} (h : H.Read cs) (hist : List HCall)
    (hl : ∀ c ∈ hist, c.NoLimit) : (H.afterAll hist).Read cs := by
  unfold Hier.afterAll
  induction hist generalizing H with
  | nil => exact h
  | cons c hist ih => exact ih (h.after (hl c (by simp))) (fun c hc => hl c (by simp [hc]))

theorem loopAll_c {β α : Type*} (f : CloudObj α → Except Err β × CloudObj α) (hf : ∀ o, (f o).2.c = o.c)
    (l : List (CloudObj α)) : (Hier.loopAll f l).2.map (·.c) = l.map (·.c) := by
  induction l with
  | nil => rfl
  | cons o l ih =>
    have e := hf o
    unfold Hier.loopAll
    cases hfo : f o with
    | mk r o' =>
      rw [hfo] at e
      cases r with
      | error x => simp only [List.map_cons] at e ⊢; rw [e]
      | ok b =>
        dsimp only at e ⊢
        split
        · rename_i _ _ heq
          rw [heq] at ih
          simp only [List.map_cons] at ih ⊢
          rw [e, ih]
        · rename_i _ _ heq
          rw [heq] at ih
          simp only [List.map_cons] at ih ⊢
          rw [e, ih]

/-- **C112, the points stay.** No history of calls, whatever it returns or raises, changes
the points or the batch ids of a level, or the order of the levels. -/
theorem C112_points_stay {H : Hier k K} (hist : List HCall) :
    (H.afterAll hist).clouds.map (·.c) = H.clouds.map (·.c) := by
  have hafter : ∀ (H : Hier k K) (c : HCall), (H.after c).clouds.map (·.c) = H.clouds.map (·.c) := by
    intro H c
    cases c with
    | getId id => rfl
    | getPadded m => exact loopAll_c (fun o => o.getPointsPadded none) (fun o => CloudObj.after_c o (.getPadded none)) _
    | getSizes => exact loopAll_c (fun o => o.getSizes) (fun o => CloudObj.after_c o .getSizes) _
    | setBatchShape s => exact loopAll_c (fun o => o.setBatchShape s) (fun o => CloudObj.after_c o (.setBatchShape s)) _
    | level i c =>
      have : ∀ (l : List (CloudObj (Fin (k + 2) → K))) (i : ℕ), (l.modify i (·.after c)).map (·.c) = l.map (·.c) := by
        intro l
        induction l with
        | nil => intro i; cases i <;> rfl
        | cons o l ih =>
          intro i
          cases i with
          | zero => simp [CloudObj.after_c]
          | succ i => simp [List.modify_succ_cons, ih]
      exact this _ _
  unfold Hier.afterAll
  induction hist generalizing H with
  | nil => rfl
  | cons c hist ih => exact (ih (H := H.after c)).trans (hafter H c)

theorem loopAll_values {β α : Type*} (f : CloudObj α → Except Err β × CloudObj α) {γ : Type*} (l : List γ) (g : γ → CloudObj α)
    (P : γ → β → Prop) (h : ∀ x ∈ l, ∃ b, (f (g x)).1 = .ok b ∧ P x b) :
    ∃ bs, (Hier.loopAll f (l.map g)).1 = .ok bs ∧ List.Forall₂ P l bs := by
  induction l with
  | nil => exact ⟨[], rfl, .nil⟩
  | cons x l ih =>
    obtain ⟨bs, h1, h2⟩ := ih (fun x hx => h x (by simp [hx]))
    obtain ⟨b, hb, hP⟩ := h x (by simp)
    rw [List.map_cons]
    unfold Hier.loopAll
    cases hf : f (g x) with
    | mk r o' =>
      rw [hf] at hb
      dsimp only at hb
      subst hb
      cases hl : Hier.loopAll f (l.map g) with
      | mk r2 os' =>
        rw [hl] at h1
        dsimp only at h1
        subst h1
        exact ⟨b :: bs, rfl, .cons hP h2⟩

/-- **C112, sizes.** After every history of calls, `get_sizes()` of a hierarchy without
empty batch elements returns one entry per level, in the order of the levels: the number
of points of every batch element of this level. -/
theorem C112_sizes_partial {H : Hier k K} {cs : List (Cloud (Fin (k + 2) → K))} (h : H.Read cs)
    (hc : ∀ c ∈ cs, c.Valid ∧ c.NoEmpty) (hist : List HCall) (hl : ∀ c ∈ hist, c.NoLimit) :
    ∃ rs, (H.afterAll hist).getSizes.1 = .ok rs ∧ List.Forall₂ (fun (c : Cloud (Fin (k + 2) → K)) r =>
      r.1.prod = c.B ∧ r.2 = (List.range c.B).map (fun b => ((Finset.univ.filter (fun i => c.batch i = b)).card))) cs rs := by
  obtain ⟨L, h1, h2, h3⟩ := h.afterAll hist hl
  subst h2
  unfold Hier.getSizes
  dsimp only
  rw [h1]
  simp only [List.forall₂_map_left_iff]
  refine loopAll_values _ _ _ _ ?_
  intro p hp
  obtain ⟨hv, hne⟩ := hc p.1 (List.mem_map_of_mem hp)
  obtain ⟨sh, e1, e2⟩ := C04_sizes_noEmpty p.1 hv hne p.2
  exact ⟨_, e1, e2, rfl⟩

/-- **C112, padded points.** After every history of calls, `get_points()` of the hierarchy
returns one block of rows per batch element of every level: the points of this element
followed by zeros, up to the number of points of the largest element of this level,
whatever `max_num_points` is. -/
theorem C112_points_partial {H : Hier k K} {cs : List (Cloud (Fin (k + 2) → K))} (h : H.Read cs)
    (hc : ∀ c ∈ cs, c.Valid ∧ c.NoEmpty) (hist : List HCall) (hl : ∀ c ∈ hist, c.NoLimit) (m : Option ℕ) :
    ∃ rs, ((H.afterAll hist).getPointsPadded m).1 = .ok rs ∧ List.Forall₂ (fun (c : Cloud (Fin (k + 2) → K)) r =>
      r.1.prod = c.B ∧ r.2.length = c.B ∧ ∀ b (hb : b < r.2.length), ∃ idx : List (Fin c.n), idx.Pairwise (· < ·) ∧
        (∀ q, q ∈ idx ↔ c.batch q = b) ∧
        r.2[b] = idx.map c.pts ++ List.replicate ((Finset.range c.B).sup (sizeOf c) - idx.length) 0) cs rs := by
  obtain ⟨L, h1, h2, h3⟩ := h.afterAll hist hl
  subst h2
  unfold Hier.getPointsPadded
  dsimp only
  rw [h1]
  simp only [List.forall₂_map_left_iff]
  refine loopAll_values _ _ _ _ ?_
  intro p hp
  obtain ⟨hv, hne⟩ := hc p.1 (List.mem_map_of_mem hp)
  obtain ⟨sh, blocks, e1, e2, e3, e4⟩ := C06_padded_view_partial p.1 hv hne p.2 (h3 p hp)
  refine ⟨_, e1, e2, e3, ?_⟩
  intro b hb
  obtain ⟨l, hl, hb'⟩ := e4 b hb
  have hb2 : b < p.1.B := by rw [← e3]; exact hb
  have hcc : ((CloudObj.ofCloud p.1).afterAll p.2).c = p.1 := CloudObj.afterAll_c _ _
  have key : ∀ o : CloudObj (Fin (k + 2) → K), o.c = p.1 → o.getPointsId b = .ok l →
      l = (p.1.members b).map p.1.pts := by
    rintro ⟨c, s, bs, ss, u⟩ rfl ho
    unfold CloudObj.getPointsId at ho
    rw [if_neg (by dsimp only; omega)] at ho
    simpa [Cloud.members] using ho.symm
  have hl' := key _ hcc hl
  subst hl'
  refine ⟨p.1.members b, ?_, ?_, ?_⟩
  · unfold Cloud.members
    exact (List.pairwise_lt_finRange _).filter _
  · intro q
    simp [Cloud.members]
  · rw [hb', List.length_map]

/-- The constructor builds hierarchies that meet the hypotheses. -/
theorem C112_constructor (dev : Device) (eps : K) (heps : 0 < eps)
    (lower : String → String) (mode : String) (c : Cloud (Fin (k + 2) → K))
    (hist : List CloudObj.Call) (hlim : ∀ x ∈ hist, x.limit = none) (hv : c.Valid) (hne : c.NoEmpty)
    (sizes : List (Arg K)) (H : Hier k K)
    (hH : HierNew dev eps lower mode ((CloudObj.ofCloud c).afterAll hist) sizes (.ok H))
    (hpos : ∀ cs ∈ H.cellSizes, ∀ d, 0 < cs d) :
    ∃ cs, cs.length = sizes.length + 1 ∧ cs.head? = some c ∧ cs = H.clouds.map (·.c) ∧ H.Read cs ∧
      ∀ c' ∈ cs, c'.Valid ∧ c'.NoEmpty := by
  have hc : ((CloudObj.ofCloud c).afterAll hist).c = c := CloudObj.afterAll_c _ _
  have hwf := C31_hierarchy_well_formed dev eps heps lower mode _ (by rw [hc]; exact hv) sizes H hH hpos
  obtain ⟨L0, g1, _, g3⟩ := C70_levels dev eps heps lower mode c hist hv hne sizes H hH hpos
  have hcl : H.clouds.map (·.c) = L0.map Prod.fst := by
    rw [g1, List.map_map]
    exact List.map_congr_left (fun p _ => CloudObj.afterAll_c (CloudObj.ofCloud p.1) p.2)
  refine ⟨H.clouds.map (·.c), ?_, ?_, rfl, ?_, ?_⟩
  · rw [List.length_map]; exact hwf.1
  · rw [List.head?_map, hwf.2.1]
    exact congrArg some hc
  · rcases hH with ⟨ls, hls, he⟩ | ⟨e, _, he⟩
    swap
    · simp at he
    simp only [Except.ok.injEq] at he
    subst he
    have hfresh : ∃ L : List (Cloud (Fin (k + 2) → K) × List CloudObj.Call), ls.map (·.1) =
        L.map (fun p => (CloudObj.ofCloud p.1).afterAll p.2) ∧ ∀ p ∈ L, ∀ x ∈ p.2, x.limit = none := by
      clear hwf hpos g1 g3 hcl
      generalize ((CloudObj.ofCloud c).afterAll hist).batchShape = bs at hls
      generalize (CloudObj.ofCloud c).afterAll hist = o0 at hls
      generalize hr : (Except.ok ls : Except Err _) = r at hls
      induction hls generalizing ls with
      | nil o => simp only [Except.ok.injEq] at hr; subst hr; exact ⟨[], rfl, by simp⟩
      | fail o a as e _ => simp at hr
      | failLater o a as o' cs h e _ _ => simp at hr
      | cons o a as o' cs h rest hst _ ih =>
        simp only [Except.ok.injEq] at hr
        subst hr
        obtain ⟨L, e1, e2⟩ := ih rest rfl
        cases hst with
        | ok l h c' hl hnew hs hb =>
          refine ⟨(c', [.setBatchShape bs]) :: L, by rw [List.map_cons, List.map_cons, e1]; rfl, ?_⟩
          intro p hp
          rcases List.mem_cons.1 hp with rfl | hp
          · simp [CloudObj.Call.limit]
          · exact e2 p hp
    obtain ⟨L, e1, e2⟩ := hfresh
    refine ⟨(c, hist) :: L, ?_, ?_, ?_⟩
    · unfold Hier.LevelsFrom
      dsimp only
      rw [e1]
      rfl
    · simp only [List.map_cons, e1, hc, List.map_map]
      congr 1
      exact (List.map_congr_left (fun p _ => CloudObj.afterAll_c (CloudObj.ofCloud p.1) p.2)).symm
    · intro p hp
      rcases List.mem_cons.1 hp with rfl | hp
      · exact hlim
      · exact e2 p hp
  · rw [hcl]
    intro c' hc'
    obtain ⟨p, hp, rfl⟩ := List.mem_map.1 hc'
    exact (g3 p hp).2

end

/-- **C112, the limit is not honoured**: `get_points(max_num_points=3)` of a hierarchy does
not return blocks of three rows. -/
theorem C112_limit_false : ¬ ∀ (H : Hier 0 ℚ) (c : Cloud (Fin 2 → ℚ)), H.Read [c] → c.Valid → c.NoEmpty → ∀ m,
    (∀ b < c.B, sizeOf c b ≤ m) → ∀ rs, (H.getPointsPadded (some m)).1 = .ok rs →
    ∀ r ∈ rs, ∀ blk ∈ r.2, blk.length = m := by
  intro hall
  let c : Cloud (Fin 2 → ℚ) := ⟨2, ![![1, 2], ![3, 4]], ![0, 1], 2⟩
  have h1 := hall ⟨[CloudObj.ofCloud c], [], [], none⟩ c ⟨[(c, [])], rfl, rfl, by simp⟩ (by decide) (by decide) 3 (by decide)
    [([2], [[![1, 2]], [![3, 4]]])] (by decide +kernel) _ (List.mem_singleton.2 rfl) [![1, 2]] (by simp)
  cases h1

/-- An example: two levels; a call that raises, sizes of one level, and a reshape before
the points are read. -/
example : let c : Cloud (Fin 2 → ℚ) := ⟨3, ![![1, 2], ![3, 4], ![5, 6]], ![1, 0, 1], 2⟩
    let d : Cloud (Fin 2 → ℚ) := ⟨2, ![![3, 4], ![3, 4]], ![0, 1], 2⟩
    let H : Hier 0 ℚ := ⟨[CloudObj.ofCloud c, CloudObj.ofCloud d], [], [], none⟩
    H.Read [c, d] ∧ (c.Valid ∧ c.NoEmpty) ∧ (d.Valid ∧ d.NoEmpty) ∧
    ((H.afterAll [.setBatchShape (some [3]), .level 1 .getSizes, .setBatchShape (some [2, 1])]).getPointsPadded (some 7)).1 =
      .ok [([2, 1], [[![3, 4], 0], [![1, 2], ![5, 6]]]), ([2, 1], [[![3, 4]], [![3, 4]]])] := by
  refine ⟨⟨[(_, []), (_, [])], rfl, rfl, by simp⟩, by decide, by decide, by decide +kernel⟩

end PC
