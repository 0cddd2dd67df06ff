import Verif.Boxes
import Verif.PointCloudLemmas
import Verif.Props.Hierarchy
import Verif.Props.Nets

/-!
# C141: diameters of the bounding boxes over call histories
-/

set_option linter.unusedVariables false

namespace PC

/-- Clouds as the constructor leaves them (2-D input, or padded input). -/
def FreshBox {α : Type*} (s : BoxCloud α) : Prop :=
  s.box = none ∧ ((∃ c, s.obj = CloudObj.ofCloud c) ∨
    ∃ shape V blocks sizes bs, CloudObj.newPadded shape V blocks sizes bs = .ok s.obj)

/-- The documented shape `[A1, ..., An]` of the diameters: the current batch shape, `[batch_size]` if there is none. -/
def docShape {α : Type*} (o : CloudObj α) : List ℕ :=
  match o.batchShape with
  | none => [o.c.B]
  | some sh => sh

namespace BoxCloud
variable {α : Type*}

theorem getAABB_obj (s : BoxCloud α) : s.getAABB.2.obj = s.obj := by
  unfold getAABB
  split <;> rfl

theorem getAABB_box (s : BoxCloud α) : s.getAABB.2.box = some s.getAABB.1 := by
  unfold getAABB
  split
  · assumption
  · rfl

theorem after_obj_c [Zero α] (s : BoxCloud α) (u : Use) : (s.after u).obj.c = s.obj.c := by
  cases u with
  | call k => exact CloudObj.after_c _ _
  | box => exact congrArg CloudObj.c s.getAABB_obj

theorem afterAll_obj_c [Zero α] (s : BoxCloud α) (h : List Use) : (s.afterAll h).obj.c = s.obj.c := by
  unfold afterAll
  induction h generalizing s with
  | nil => rfl
  | cons u h ih => rw [List.foldl_cons, ih, after_obj_c]

end BoxCloud

theorem after_batchShape {α : Type*} [Zero α] (o : CloudObj α) (k : CloudObj.Call) (hk : ∀ sh, k ≠ .setBatchShape sh) :
    (o.after k).batchShape = o.batchShape := by
  have hu : ∀ m, (o.getUnflatten m).2.batchShape = o.batchShape := by
    intro m
    unfold CloudObj.getUnflatten
    split <;> rfl
  cases k with
  | getSizes => exact CloudObj.getSizes_batchShape o
  | getPadded m =>
    show (o.getPointsPadded m).2.batchShape = _
    unfold CloudObj.getPointsPadded
    dsimp only
    rcases CloudObj.applyUnflatten_sizes (o.getUnflatten m).2 (o.getUnflatten m).1 (o.getUnflatten m).2.c.pts with h | h <;>
      rw [h]
    · exact hu m
    · rw [CloudObj.getSizes_batchShape, hu]
  | getId i => rfl
  | getUnflatten m => exact hu m
  | setBatchShape s => exact absurd rfl (hk s)

/-- The box, once there, fits; and the cloud's shape fits. -/
def BoxCloud.Ok {α : Type*} (s : BoxCloud α) : Prop :=
  s.obj.ShapeOk ∧ ∀ sh, s.box = some (some sh) → sh.prod = s.obj.c.B

theorem BoxCloud.after_ok {α : Type*} [Zero α] (s : BoxCloud α) (u : BoxCloud.Use) (h : s.Ok) : (s.after u).Ok := by
  cases u with
  | call k =>
    refine ⟨CloudObj.after_shapeOk s.obj k h.1, fun sh hsh => ?_⟩
    rw [BoxCloud.after_obj_c]
    exact h.2 sh hsh
  | box =>
    constructor
    · show (s.getAABB.2).obj.ShapeOk
      rw [s.getAABB_obj]
      exact h.1
    · intro sh hsh
      have hsh' : s.getAABB.2.box = some (some sh) := hsh
      show sh.prod = s.getAABB.2.obj.c.B
      rw [s.getAABB_obj]
      unfold BoxCloud.getAABB at hsh'
      split at hsh'
      · exact h.2 sh hsh'
      · exact h.1 sh (by simpa using hsh')

theorem BoxCloud.afterAll_ok {α : Type*} [Zero α] (s : BoxCloud α) (h : List BoxCloud.Use) (hs : s.Ok) :
    (s.afterAll h).Ok := by
  unfold BoxCloud.afterAll
  induction h generalizing s with
  | nil => exact hs
  | cons u h ih => exact ih _ (s.after_ok u hs)

theorem FreshBox.ok {α : Type*} {s : BoxCloud α} (h : FreshBox s) : s.Ok := by
  refine ⟨?_, fun sh hsh => by rw [h.1] at hsh; simp at hsh⟩
  rcases h.2 with ⟨c, hc⟩ | ⟨shape, V, blocks, sizes, bs, hc⟩
  · intro sh hsh
    rw [hc] at hsh
    simp [CloudObj.ofCloud] at hsh
  · intro sh hsh
    unfold CloudObj.newPadded at hc
    dsimp only at hc
    split at hc
    · simp at hc
    · rename_i hB
      split at hc
      · injection hc with hc
        rw [← hc] at hsh ⊢
        simp only [Option.some.injEq] at hsh
        subst hsh
        push Not at hB
        exact hB.symm
      · simp at hc

/-- **C141.** Whatever was called before, the diameters can be asked for and element `b` of the batch has the diameter of
its own points. -/
theorem C141_values {D : ℕ} (eps : ℝ) (s : BoxCloud (Fin D → ℝ)) (hs : FreshBox s) (h : List BoxCloud.Use) (ord : NormOrd) :
    ∃ sh vals, ((s.afterAll h).diam eps ord).1 = .ok (sh, vals) ∧ sh.prod = s.obj.c.B ∧ vals.length = s.obj.c.B ∧
      ∀ b < s.obj.c.B, vals[b]? = some (getDiameter eps s.obj.c b ord) := by
  have hok := (s.afterAll h).after_ok .box (s.afterAll_ok h hs.ok)
  have hc := s.afterAll_obj_c h
  generalize s.afterAll h = s' at hok hc ⊢
  have hfin : ((List.range s.obj.c.B).map (fun b => getDiameter eps s.obj.c b ord)).length = s.obj.c.B ∧
      ∀ b < s.obj.c.B, ((List.range s.obj.c.B).map (fun b => getDiameter eps s.obj.c b ord))[b]? =
        some (getDiameter eps s.obj.c b ord) := by
    refine ⟨by simp, fun b hb => ?_⟩
    rw [List.getElem?_map, List.getElem?_range hb]
    rfl
  unfold BoxCloud.diam
  dsimp only
  rw [hc]
  have hb := s'.getAABB_box
  have ho : s'.getAABB.2.obj.c = s'.obj.c := by rw [s'.getAABB_obj]
  rcases hr : s'.getAABB with ⟨b, s''⟩
  rw [hr] at hb ho
  have hok2 := hok.2
  change ∀ sh, s'.getAABB.2.box = some (some sh) → sh.prod = s'.getAABB.2.obj.c.B at hok2
  rw [hr] at hok2
  cases b with
  | none => exact ⟨_, _, rfl, by simp, hfin⟩
  | some sh =>
    have hp : sh.prod = s.obj.c.B := by
      have h1 := hok2 sh hb
      dsimp only at h1 ho
      rw [h1, ho, hc]
    dsimp only
    rw [if_pos hp]
    exact ⟨_, _, rfl, hp, hfin⟩

/-- The shape of the diameters. -/
theorem diam_shape {D : ℕ} (eps : ℝ) (s : BoxCloud (Fin D → ℝ)) (ord : NormOrd) {sh : List ℕ} {vals : List (Option ℝ)}
    (h : (s.diam eps ord).1 = .ok (sh, vals)) : sh = s.getAABB.1.getD [s.obj.c.B] := by
  unfold BoxCloud.diam at h
  dsimp only at h
  rcases hr : s.getAABB with ⟨b, s''⟩
  rw [hr] at h
  cases b with
  | none =>
    dsimp only at h
    injection h with h
    exact (congrArg Prod.fst h).symm
  | some sh' =>
    dsimp only at h
    split at h
    · injection h with h
      exact (congrArg Prod.fst h).symm
    · simp at h

theorem BoxCloud.afterAll_box {α : Type*} [Zero α] (s : BoxCloud α) (h : List BoxCloud.Use) {b : Option (List ℕ)}
    (hb : s.box = some b) : (s.afterAll h).box = some b := by
  unfold BoxCloud.afterAll
  induction h generalizing s with
  | nil => exact hb
  | cons u h ih =>
    refine ih _ ?_
    cases u with
    | call k => exact hb
    | box =>
      show s.getAABB.2.box = _
      unfold BoxCloud.getAABB
      rw [hb]
      exact hb

/-- From the first use of the box on, the diameters have the shape the cloud had at that use. -/
theorem C141_frozen {D : ℕ} (eps : ℝ) (s : BoxCloud (Fin D → ℝ)) (h : List BoxCloud.Use) (ord : NormOrd)
    (hs : s.box = none) {sh : List ℕ} {vals : List (Option ℝ)}
    (hd : (((s.after .box).afterAll h).diam eps ord).1 = .ok (sh, vals)) : sh = docShape s.obj := by
  have h1 := diam_shape eps _ ord hd
  have hb : (s.after .box).box = some s.obj.batchShape := by
    show s.getAABB.2.box = _
    unfold BoxCloud.getAABB
    rw [hs]
  have h2 := (s.after .box).afterAll_box h hb
  rw [BoxCloud.afterAll_obj_c, BoxCloud.after_obj_c] at h1
  rw [h1]
  unfold BoxCloud.getAABB docShape
  rw [h2]
  cases s.obj.batchShape <;> rfl

/-- Two points in one batch of two clouds. -/
noncomputable abbrev bxCloud : Cloud (Fin 1 → ℝ) := ⟨2, fun _ _ => 0, fun i => i.val, 2⟩

/-- Property: the diameters have the documented shape, the current batch shape. -/
theorem C141_shape_false :
    ¬ ∀ (D : ℕ) (eps : ℝ) (s : BoxCloud (Fin D → ℝ)), FreshBox s → ∀ (h : List BoxCloud.Use) (ord : NormOrd) sh vals,
      ((s.afterAll h).diam eps ord).1 = .ok (sh, vals) → sh = docShape (s.afterAll h).obj := by
  intro hall
  have hf : FreshBox (⟨CloudObj.ofCloud bxCloud, none⟩ : BoxCloud (Fin 1 → ℝ)) := ⟨rfl, Or.inl ⟨_, rfl⟩⟩
  obtain ⟨sh, vals, hd, _⟩ := C141_values 0 _ hf [.box, .call (.setBatchShape (some [2, 1]))] .one
  have h1 := hall 1 0 _ hf _ .one sh vals hd
  have h2 : sh = docShape (CloudObj.ofCloud bxCloud) :=
    C141_frozen 0 ⟨CloudObj.ofCloud bxCloud, none⟩ [.call (.setBatchShape (some [2, 1]))] .one rfl hd
  rw [h2] at h1
  exact absurd h1 (by
    show ([2] : List ℕ) ≠ [2, 1]
    decide)

/-- If no batch shape is set after the first use of the box, the diameters have the documented shape.  Missing: later
changes of the batch shape (`C141_shape_false`). -/
theorem C141_shape_partial {D : ℕ} (eps : ℝ) (s : BoxCloud (Fin D → ℝ)) (hs : FreshBox s) (h₁ h₂ : List BoxCloud.Use)
    (n₁ : BoxCloud.Use.box ∉ h₁) (n₂ : ∀ sh, BoxCloud.Use.call (.setBatchShape sh) ∉ h₂) (ord : NormOrd)
    {sh : List ℕ} {vals : List (Option ℝ)} (hd : ((s.afterAll (h₁ ++ h₂)).diam eps ord).1 = .ok (sh, vals)) :
    sh = docShape (s.afterAll (h₁ ++ h₂)).obj := by
  have hnone : ∀ (l : List BoxCloud.Use) (s : BoxCloud (Fin D → ℝ)), s.box = none → BoxCloud.Use.box ∉ l →
      (s.afterAll l).box = none := by
    intro l
    induction l with
    | nil => exact fun _ h _ => h
    | cons u l ih =>
      intro s hb hn
      refine ih (s.after u) ?_ (fun h => hn (List.mem_cons_of_mem _ h))
      cases u with
      | call k => exact hb
      | box => exact absurd List.mem_cons_self hn
  have hkeep : ∀ (l : List BoxCloud.Use) (s : BoxCloud (Fin D → ℝ)), (s.box = none ∨ s.box = some s.obj.batchShape) →
      (∀ sh, BoxCloud.Use.call (.setBatchShape sh) ∉ l) →
      ((s.afterAll l).box = none ∨ (s.afterAll l).box = some (s.afterAll l).obj.batchShape) := by
    intro l
    induction l with
    | nil => exact fun _ h _ => h
    | cons u l ih =>
      intro s hb hn
      refine ih (s.after u) ?_ (fun sh h => hn sh (List.mem_cons_of_mem _ h))
      cases u with
      | call k =>
        have hk : ∀ sh, k ≠ .setBatchShape sh := by
          rintro sh rfl
          exact hn sh List.mem_cons_self
        show s.box = none ∨ s.box = some (s.obj.after k).batchShape
        rw [after_batchShape s.obj k hk]
        exact hb
      | box =>
        right
        show s.getAABB.2.box = some s.getAABB.2.obj.batchShape
        rw [s.getAABB_obj]
        unfold BoxCloud.getAABB
        rcases hb with hb | hb <;> rw [hb]
        exact hb
  have hsplit : s.afterAll (h₁ ++ h₂) = (s.afterAll h₁).afterAll h₂ := List.foldl_append
  have hfin := hkeep h₂ (s.afterAll h₁) (Or.inl (hnone h₁ s hs.1 n₁)) n₂
  rw [← hsplit] at hfin
  have h1 := diam_shape eps _ ord hd
  rw [h1]
  unfold BoxCloud.getAABB docShape
  rcases hfin with hb | hb <;> rw [hb] <;> dsimp only <;> cases (s.afterAll (h₁ ++ h₂)).obj.batchShape <;> rfl

/-! ### hierarchies -/

theorem setBatchShape_ok_shape {α : Type*} (o : CloudObj α) (bs : Option (List ℕ)) (h : (o.setBatchShape bs).1 = .ok ()) :
    (o.setBatchShape bs).2.batchShape = bs := by
  unfold CloudObj.setBatchShape at h ⊢
  dsimp only at h ⊢
  repeat' split at h
  all_goals simp_all

theorem levels_shape {K : Type*} [Field K] [LinearOrder K] [FloorRing K] {k : ℕ} {dev : Device} {eps : K}
    {lower : String → String} {mode : String} {bs : Option (List ℕ)} {o : CloudObj (Fin (k + 2) → K)} {sizes : List (Arg K)}
    {ls : List (CloudObj (Fin (k + 2) → K) × (Fin (k + 2) → K) × Nbh k K)}
    (h : Levels dev eps lower mode bs o sizes (.ok ls)) :
    ls.length = sizes.length ∧ ∀ x ∈ ls, x.1.batchShape = bs := by
  generalize hr : (Except.ok ls : Except Err _) = r at h
  induction h generalizing ls with
  | nil o =>
    injection hr with hr
    subst hr
    exact ⟨rfl, fun x hx => by simp at hx⟩
  | fail o a as e _ => simp at hr
  | failLater o a as o' cs h e _ _ => simp at hr
  | cons o a as o' cs h rest hst _ ih =>
    injection hr with hr
    subst hr
    obtain ⟨h1, h2⟩ := ih rfl
    refine ⟨by simp [h1], fun x hx => ?_⟩
    rcases List.mem_cons.1 hx with rfl | hx
    · cases hst with
      | ok l h c _ _ _ hb => exact setBatchShape_ok_shape _ _ hb
    · exact h2 x hx

theorem loopAll_ok_imp {β α : Type*} (f : CloudObj α → Except Err β × CloudObj α) (l : List (CloudObj α)) {bs : List β}
    (h : (Hier.loopAll f l).1 = .ok bs) : ∀ o ∈ l, ∃ b, (f o).1 = .ok b := by
  induction l generalizing bs with
  | nil => exact fun o ho => by simp at ho
  | cons o os ih =>
    unfold Hier.loopAll at h
    cases hf : f o with
    | mk r o' =>
      rw [hf] at h
      cases r with
      | error e => simp at h
      | ok b =>
        dsimp only at h
        cases hl : Hier.loopAll f os with
        | mk r2 os' =>
          rw [hl] at h
          cases r2 with
          | error e => simp at h
          | ok bs' =>
            intro x hx
            rcases List.mem_cons.1 hx with rfl | hx
            · exact ⟨b, by rw [hf]⟩
            · exact ih (by rw [hl]) x hx

/-- After `set_batch_shape` of a hierarchy the diameters of the last level have the new shape, those of all other levels
the shape the given cloud had when the hierarchy was built; of the first level the shape it had when its box was first
asked for (`b`: the box it had before). -/
theorem C141_hierarchy {k : ℕ} {dev : Device} {eps : ℝ} {lower : String → String} {mode : String}
    {o : CloudObj (Fin (k + 2) → ℝ)} {sizes : List (Arg ℝ)} {H : Hier k ℝ}
    (hH : HierNew dev eps lower mode o sizes (.ok H)) (hne : sizes ≠ []) {sh : List ℕ}
    (hok : (H.setBatchShape (some sh)).1 = .ok ()) (b : Option (Option (List ℕ))) :
    List.zipWith (fun o b => (⟨o, b⟩ : BoxCloud (Fin (k + 2) → ℝ)).getAABB.1) (H.setBatchShape (some sh)).2.clouds
      (H.boxes b) = b.getD o.batchShape :: (List.replicate (sizes.length - 1) o.batchShape ++ [some sh]) := by
  rcases hH with ⟨ls, hls, he⟩ | ⟨e, _, he⟩
  swap
  · simp at he
  injection he with he
  obtain ⟨hlen, hbs⟩ := levels_shape hls
  have hcl : H.clouds = o :: ls.map (·.1) := by rw [he]
  have hlenH : H.clouds.length = sizes.length + 1 := by rw [hcl]; simp [hlen]
  have hall : ∀ x ∈ H.clouds, x.batchShape = o.batchShape := by
    intro x hx
    rw [hcl] at hx
    rcases List.mem_cons.1 hx with rfl | hx
    · rfl
    · obtain ⟨y, hy, rfl⟩ := List.mem_map.1 hx
      exact hbs y hy
  have hpos : 0 < sizes.length := List.length_pos_iff.2 hne
  unfold Hier.setBatchShape at hok ⊢
  dsimp only at hok ⊢
  obtain ⟨us, hus⟩ : ∃ us, (Hier.loopAll (fun o => o.setBatchShape (some sh)) H.clouds).1 = .ok us := by
    cases h : (Hier.loopAll (fun o => o.setBatchShape (some sh)) H.clouds).1 with
    | error e => rw [h] at hok; simp [Except.map] at hok
    | ok us => exact ⟨us, rfl⟩
  have hall2 := loopAll_ok_imp _ _ hus
  have hmap := (loopAll_ok _ _ hall2).2
  rw [hmap]
  apply List.ext_getElem
  · simp [Hier.boxes, hlenH]
    omega
  intro i h1 h2
  have hi : i < H.clouds.length := by simpa [Hier.boxes] using h1
  have hx := List.getElem_mem hi
  have hsh : ((H.clouds[i]).setBatchShape (some sh)).2.batchShape = some sh := by
    obtain ⟨u, hu⟩ := hall2 _ hx
    exact setBatchShape_ok_shape _ _ hu
  simp only [List.getElem_zipWith, List.getElem_map, Hier.boxes, List.getElem_mapIdx]
  rw [hall _ hx]
  by_cases hlast : i < sizes.length
  · unfold BoxCloud.getAABB
    by_cases h0 : i = 0
    · subst h0
      simp
    · obtain ⟨j, rfl⟩ : ∃ j, i = j + 1 := ⟨i - 1, by omega⟩
      rw [List.getElem_cons_succ, List.getElem_append_left (by simp; omega), List.getElem_replicate, if_neg h0, if_pos (by omega)]
  · have hi' : i = sizes.length := by omega
    obtain ⟨j, rfl⟩ : ∃ j, i = j + 1 := ⟨i - 1, by omega⟩
    rw [List.getElem_cons_succ, List.getElem_append_right (by simp; omega)]
    simp only [List.length_replicate, List.getElem_singleton]
    rw [if_neg (by omega), if_neg (by omega)]
    unfold BoxCloud.getAABB
    exact hsh

/-- The hypotheses of `C141_hierarchy` are met by every cloud in which no batch element is empty, any scalar cell sizes
and any shape of the right product. -/
theorem C141_hierarchy_runs {k : ℕ} {eps : ℝ} (heps : 0 < eps) (c : Cloud (Fin (k + 2) → ℝ)) (hv : c.Valid)
    (hne : c.NoEmpty) (hn : 0 < c.n) (rs : List ℝ) (hr : ∀ r ∈ rs, 0 < r) (sh : List ℕ) (hsh : sh.prod = c.B) :
    ∃ H, HierNew .gpu eps id "poisson" (CloudObj.ofCloud c) (rs.map (fun r => ⟨[1], [r]⟩)) (.ok H) ∧
      (H.setBatchShape (some sh)).1 = .ok () := by
  obtain ⟨H, hH⟩ := (C31_constructor_succeeds eps heps id "poisson" (by simp) (CloudObj.ofCloud c) hv hn
    (by intro sh h; cases h) (rs.map (fun r => ⟨[1], [r]⟩)) (by
      intro a ha
      obtain ⟨r, hr', rfl⟩ := List.mem_map.1 ha
      simp [hr r hr'])).1
  have hpos : ∀ cs ∈ H.cellSizes, ∀ d, 0 < cs d := by
    intro cs hcs d
    rw [hier_sizes hH, List.mem_map] at hcs
    obtain ⟨r, hr', rfl⟩ := hcs
    exact hr r hr'
  obtain ⟨L, hL, hL0, hLB⟩ := C70_levels .gpu eps heps id "poisson" c [] hv hne _ H hH hpos
  exact ⟨H, hH, ((C70_set_batch_shape_partial H L hL hL0 c.B hLB sh).2 hsh).1⟩

/-- Histories as in `C141_shape_partial`. -/
example : BoxCloud.Use.box ∉ [BoxCloud.Use.call (.setBatchShape (some [2, 1])), .call .getSizes] ∧
    ∀ sh, BoxCloud.Use.call (.setBatchShape sh) ∉ [BoxCloud.Use.box, .call (.getId 1)] := by
  constructor
  · simp
  · intro sh
    simp

end PC
