import Verif.Pipeline
import Verif.Props.PointCloud2

/-!
# C115: the layout of the features between layers
-/

set_option linter.unusedVariables false
set_option linter.unusedSectionVars false

namespace PC
open CloudObj

/-- Specification: the computations of the layers, one after the other, on one
row per point. -/
def Pipeline.value {α β : Type*} {c : Cloud α} : Pipeline α β c → (Fin c.n → β) → Except Err (Σ n, Fin n → β)
  | .done c, f => .ok ⟨c.n, f⟩
  | .call F _ _ _ _ rest, f =>
    match F f with
    | .error e => .error e
    | .ok g => rest.value g

/-- Specification: the rows of every batch element in the order of the cloud,
followed by zeros up to the size of the largest element. -/
def padElems {α β : Type*} [Zero β] (c : Cloud α) (f : Fin c.n → β) : List (List β) :=
  (List.range c.B).map (fun b =>
    ((List.finRange c.n).filter (fun i => c.batch i = b)).map f ++
      List.replicate (((List.range c.B).map (fun b =>
        ((List.finRange c.n).filter (fun i => c.batch i = b)).length)).foldr max 0 -
        ((List.finRange c.n).filter (fun i => c.batch i = b)).length) 0)

/-- Specification: `x` is the tensor `f` on the cloud `c`, either one row per point or padded. -/
inductive Layout {α β : Type*} [Zero β] (c : Cloud α) (f : Fin c.n → β) : Formatted β → Prop
  | rows : Layout c f (.rows (List.ofFn f))
  | padded (sh : List ℕ) : Layout c f (.padded sh (padElems c f))

/-- Specification: the rows of a tensor, batch element by batch element. -/
def sortedRows {α β : Type*} (c : Cloud α) (f : Fin c.n → β) : List β :=
  (List.range c.B).flatMap (fun b => ((List.finRange c.n).filter (fun i => c.batch i = b)).map f)

/-- The last cloud of a pipeline. -/
def Pipeline.last {α β : Type*} {c : Cloud α} : Pipeline α β c → Cloud α
  | .done c => c
  | .call _ _ _ _ _ rest => rest.last

/-- No layer is left. -/
def Pipeline.isDone {α β : Type*} {c : Cloud α} : Pipeline α β c → Bool
  | .done _ => true
  | .call .. => false

theorem layerInput_layout {α β : Type*} [Zero α] [Zero β] (c : Cloud α) (hv : c.Valid) (hne : c.NoEmpty)
    (o : CloudObj α) (hc : o.c = c) (hok : o.SizesOk) (hsh : o.ShapeOk)
    (f : Fin o.c.n → β) {x : Formatted β} (hx : Layout o.c f x) : o.layerInput x = .ok f := by
  subst hc
  cases hx with
  | rows => simp [layerInput, flattenFeatures2D]
  | padded sh =>
    obtain ⟨sh', hs1, hs2⟩ := getSizes_success o hok hsh hv hne
    have hflat : List.ofFn (f ∘ o.c.sortedIndicesBatch) =
        ((List.range o.c.B).map (fun b => (o.c.members b).map f)).flatten := by
      have : List.ofFn (f ∘ o.c.sortedIndicesBatch) =
          (List.ofFn o.c.sortedIndicesBatch).map f := by
        simp [List.ofFn_eq_map, List.map_map]
      rw [this]
      unfold Cloud.sortedIndicesBatch
      rw [argsortAsc_flatMap o.c.batch o.c.B hv, List.map_flatMap, List.flatMap_def]
      rfl
    have hrows : flattenRows (padElems o.c f) ((List.range o.c.B).map (fun b => (o.c.members b).length)) =
        List.ofFn (f ∘ o.c.sortedIndicesBatch) := by
      rw [hflat, ← flattenRows_scatter (((List.range o.c.B).map (fun b => (o.c.members b).length)).foldr max 0)]
      unfold padElems Cloud.members
      simp [List.map_map, Function.comp_def]
    show (o.flattenFeatures _).1 = _
    unfold flattenFeatures
    split
    · rename_i e o' heq
      rw [heq] at hs1; simp at hs1
    · rename_i sh3 sz3 o' heq
      rw [heq] at hs1
      simp only [Except.ok.injEq, Prod.mk.injEq] at hs1
      obtain ⟨rfl, rfl⟩ := hs1
      have hl := congrArg List.length hrows
      rw [List.length_ofFn] at hl
      rw [dif_pos hl]
      simp only [Except.ok.injEq]
      funext i
      simp only [hrows, List.getElem_ofFn, Function.comp]
      congr 1
      exact o.c.sortedIndicesBatch.apply_symm_apply i

theorem formatOutput_layout {α β : Type*} [Zero α] [Zero β] (c : Cloud α) (hv : c.Valid) (hne : c.NoEmpty)
    (o : CloudObj α) (hc : o.c = c) (hok : o.SizesOk) (hsh : o.ShapeOk)
    (hun : o.unflatten = none ∨ o.unflatten = some (.sorted none))
    (f : Fin o.c.n → β) (rs rp : Bool) :
    ∃ x, o.formatOutput f rs rp = .ok x ∧
      (Layout o.c f x ∨ rs = true ∧ rp = false ∧ x = .rows (sortedRows o.c f)) ∧
      (rp = false → (∀ i j, i ≤ j → o.c.batch i ≤ o.c.batch j) → Layout o.c f x) := by
  subst hc
  cases rp with
  | true =>
    obtain ⟨sh, h1, h2⟩ := applyUnflatten_sorted o hok hsh hv hne none _ rfl (by
      intro b hb
      apply foldr_max_ge
      simp only [List.mem_map, List.mem_range]
      exact ⟨b, hb, rfl⟩) f
    refine ⟨.padded sh (padElems o.c f), ?_, .inl (.padded sh), fun h => by cases h⟩
    unfold formatOutput
    rw [if_pos rfl]
    simp only [Option.getD_none] at h1
    rcases hun with h | h <;> rw [h] <;> simp only <;> rw [h1] <;> rfl
  | false =>
    cases rs with
    | false => exact ⟨.rows (List.ofFn f), by simp [formatOutput], .inl .rows, fun _ _ => .rows⟩
    | true =>
      refine ⟨_, C10_return_sorted o hv f, .inr ⟨rfl, rfl, rfl⟩, fun _ hs => ?_⟩
      have h1 := C10_return_sorted o hv f
      have : o.c.sortedIndicesBatch = Equiv.refl _ := argsortAsc_eq_refl _ hs
      simp only [formatOutput, Bool.false_eq_true, if_false, if_true, this] at h1
      simp only [Except.ok.injEq] at h1
      rw [← h1]
      exact .rows

/-- What a pipeline must satisfy: clouds without empty batch elements, nobody
asked the point clouds for a number of rows, and no layer but the last returns sorted
rows of a cloud whose points are not sorted. -/
def Pipeline.Ok {α β : Type*} {c : Cloud α} : Pipeline α β c → Prop
  | .done c => True
  | .call (c := c) (c' := c') F rs rp h h' rest =>
    c.Valid ∧ c.NoEmpty ∧ c'.Valid ∧ c'.NoEmpty ∧ (∀ k ∈ h', k.limit = none) ∧
      (rs = true → rp = false → rest.isDone = false → ∀ i j, i ≤ j → c'.batch i ≤ c'.batch j) ∧ rest.Ok

theorem recast_rfl {β : Type*} {n : ℕ} (e : n = n) (f : Fin n → β) : recast e f = f := rfl

/-- **C115.** Whatever layouts are used between the layers: the result is the
composition of the computations of the layers, in one of the layouts.  Missing:
sorted rows in the middle (`C115_layouts_false`), empty batch elements. -/
theorem C115_layouts_partial {α β : Type*} [Zero α] [Zero β] {c : Cloud α} (P : Pipeline α β c) (hP : P.Ok)
    (f : Fin c.n → β) {x : Formatted β} (hx : Layout c f x) :
    (∀ e, P.value f = .error e → P.run x = .error e) ∧
    (∀ r, P.value f = .ok r → ∃ (g : Fin P.last.n → β) (y : Formatted β), r = ⟨P.last.n, g⟩ ∧ P.run x = .ok y ∧
      (Layout P.last g y ∨ y = .rows (sortedRows P.last g))) := by
  induction P generalizing x with
  | done c =>
    refine ⟨fun e h => by simp [Pipeline.value] at h, fun r h => ?_⟩
    simp only [Pipeline.value, Except.ok.injEq] at h
    exact ⟨f, x, h.symm, rfl, .inl hx⟩
  | call F rs rp h h' rest ih =>
    rename_i c c'
    obtain ⟨hv, hne, hv', hne', hk, hs, hrest⟩ := hP
    have hin : ∀ (o : CloudObj α) (o' : CloudObj α), o.c = c → o'.c = c' → o.SizesOk → o.ShapeOk → o'.SizesOk →
        o'.ShapeOk → (o'.unflatten = none ∨ o'.unflatten = some (.sorted none)) →
        ∀ e : o.c.n = c.n ∧ o'.c.n = c'.n,
        (∀ e1, F f = .error e1 → CloudObj.layerCall o o' (recastLayer e.1 e.2 F) rs rp x = .error e1) ∧
        (∀ g, F f = .ok g → ∃ y, CloudObj.layerCall o o' (recastLayer e.1 e.2 F) rs rp x = .ok y ∧
          (Layout c' g y ∨ rest.isDone = true ∧ y = .rows (sortedRows c' g))) := by
      intro o o' hc hc' h1 h2 h3 h4 h5 e
      subst hc hc'
      unfold CloudObj.layerCall
      rw [layerInput_layout o.c hv hne o rfl h1 h2 f hx]
      simp only [recastLayer, recast_rfl]
      refine ⟨fun e1 he => by rw [he], fun g hg => ?_⟩
      rw [hg]
      obtain ⟨y, hy, h6, h7⟩ := formatOutput_layout o'.c hv' hne' o' rfl h3 h4 h5 g rs rp
      refine ⟨y, hy, ?_⟩
      rcases h6 with h6 | ⟨h6, h8, h9⟩
      · exact .inl h6
      · cases hd : rest.isDone with
        | true => exact .inr ⟨rfl, h9⟩
        | false => exact .inl (h7 h8 (hs h6 h8 hd))
    have hin := hin ((ofCloud c).afterAll h) ((ofCloud c').afterAll h') (afterAll_c _ _) (afterAll_c _ _)
      (afterAll_ok _ _ (ofCloud_ok c)) (afterAll_shapeOk _ _ (ofCloud_shapeOk c))
      (afterAll_ok _ _ (ofCloud_ok c')) (afterAll_shapeOk _ _ (ofCloud_shapeOk c'))
      (afterAll_unflatten _ _ (Or.inl rfl) hk)
    have e : ((ofCloud c).afterAll h).c.n = c.n ∧ ((ofCloud c').afterAll h').c.n = c'.n := by
      rw [afterAll_c, afterAll_c]; exact ⟨rfl, rfl⟩
    obtain ⟨i1, i2⟩ := hin e
    simp only [Pipeline.run, Pipeline.value]
    rw [dif_pos e]
    cases hF : F f with
    | error e1 =>
      simp only
      rw [i1 e1 hF]
      exact ⟨fun e2 h => by cases h; rfl, fun r h => by simp at h⟩
    | ok g =>
      obtain ⟨y, hy, hl⟩ := i2 g hF
      simp only
      rw [hy]
      rcases hl with hl | ⟨hd, hl⟩
      · exact ih hrest g hl
      · cases rest with
        | call _ _ _ _ _ _ => cases hd
        | done c' =>
          refine ⟨fun e h => by simp [Pipeline.value] at h, fun r h => ?_⟩
          simp only [Pipeline.value, Except.ok.injEq] at h
          exact ⟨g, y, h.symm, rfl, .inr hl⟩

/-! ### Sorted rows are not understood by the next layer -/

/-- Three points whose batch ids are not sorted. -/
abbrev plCloud : Cloud ℤ := ⟨3, ![0, 0, 0], ![1, 0, 1], 2⟩

/-- **C115, negation**: after a layer called with `return_sorted=True` the next
layer takes the rows as rows of the unsorted points; with one row per point as
final output the result is not what the layers compute, although no layer raises
an exception. -/
theorem C115_layouts_false : ¬ ∀ (c : Cloud ℤ) (_ : c.Valid) (_ : c.NoEmpty) (F G : (Fin c.n → ℤ) → Except Err (Fin c.n → ℤ))
    (f g g' : Fin c.n → ℤ) (_ : F f = .ok g) (_ : G g = .ok g') (rs rp : Bool) (y : Formatted ℤ),
    (Pipeline.call (c' := c) F rs rp [] [] (.call (c' := c) G false false [] [] (.done c))).run (.rows (List.ofFn f)) =
      .ok y → Layout c g' y := by
  intro h
  have := h plCloud (by decide) (by decide) (fun f => .ok f) (fun f => .ok f) ![10, 20, 30] ![10, 20, 30] ![10, 20, 30]
    rfl rfl true false (.rows [20, 10, 30]) (by
      have e : (Pipeline.call (c := plCloud) (c' := plCloud) (β := ℤ) (fun f => .ok f) true false [] []
        (.call (c' := plCloud) (fun f => .ok f) false false [] [] (.done plCloud))).run
          (.rows (List.ofFn ![10, 20, 30])) = .ok (.rows [20, 10, 30]) := by rfl
      exact e)
  generalize hy : (Formatted.rows [20, 10, 30] : Formatted ℤ) = y at this
  cases this with
  | rows => revert hy; simp
  | padded sh => simp at hy

/-- The hypotheses can be met: two layers with padded features in between, after
a call that sets the batch shape. -/
example : (Pipeline.call (c := plCloud) (c' := plCloud) (fun f => .ok (fun i => 2 * f i)) false true
    [.getSizes] [.setBatchShape (some [2, 1])]
    (.call (c' := plCloud) (fun f => .ok (fun i => f i + 1)) true true [.getPadded none] [] (.done plCloud)) :
    Pipeline ℤ ℤ plCloud).Ok := by
  refine ⟨?_, ?_, ?_, ?_, ?_, ?_, ?_, ?_, ?_, ?_, ?_, ?_, trivial⟩ <;> decide

end PC
