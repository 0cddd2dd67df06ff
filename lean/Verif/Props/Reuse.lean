import Verif.Reuse
import Verif.Props.Layers

/-!
# C117: layers called with a precomputed neighbourhood
-/

set_option linter.unusedVariables false
set_option linter.unusedSectionVars false

namespace PC

section
variable {K : Type*} [Field K] [LinearOrder K] [FloorRing K] {k : ℕ}

theorem withNbh_none {cin cout : Cloud (Fin (k + 2) → K)} (ker act : K → K) (dev : Device) (eps radius : K)
    {h : Nbh k K} (hl : layerNbh dev eps cin cout radius = .ok h) (a : ConvCall K cin.n) :
    (a.withNbh (cout := cout) ker act dev h radius none).1 = a.alone ker act dev eps radius := by
  cases a <;> simp only [ConvCall.withNbh, ConvCall.alone, MCLayer.call, PCLayer.call, hl] <;>
    (unfold Nbh.runGet; dsimp only; split <;> simp_all)

/-- The stored densities after a call. -/
theorem withNbh_state {cin cout : Cloud (Fin (k + 2) → K)} (ker act : K → K) (dev : Device) (radius : K)
    (h : Nbh k K) (s : Option (List K)) (a : ConvCall K cin.n) :
    (a.withNbh (cout := cout) ker act dev h radius s).2 =
      (h.runGet ker dev s ⟨fun _ => a.bw, .constant, false⟩).2 := by
  cases a <;> simp only [ConvCall.withNbh, ConvCall.bw] <;> split <;> simp_all

theorem runGet_again (ker : K → K) (dev : Device) (h : Nbh k K) (a : PdfArgs k K) :
    h.runGet ker dev (h.runGet ker dev none a).2 a = h.runGet ker dev none a := by
  unfold Nbh.runGet
  dsimp only
  cases h.computePdf ker dev a.bw a.mode a.normalize <;> rfl

theorem withNbh_again {cin cout : Cloud (Fin (k + 2) → K)} (ker act : K → K) (dev : Device) (radius : K)
    (h : Nbh k K) (a : ConvCall K cin.n) :
    a.withNbh (cout := cout) ker act dev h radius (h.runGet ker dev none ⟨fun _ => a.bw, .constant, false⟩).2 =
      a.withNbh (cout := cout) ker act dev h radius none := by
  cases a <;> simp only [ConvCall.withNbh, ConvCall.bw] <;> rw [runGet_again]

/-- **C117, reuse.** Any sequence of calls of `MCConv` and `PointConv` layers with
one bandwidth, given the neighbourhood of the two clouds with this radius,
returns what the calls without `neighborhood` return.  Missing: calls with
different bandwidths, `C117_bandwidth_false`. -/
theorem C117_reuse_partial {cin cout : Cloud (Fin (k + 2) → K)} (ker act : K → K) (dev : Device) (eps radius bw : K)
    {h : Nbh k K} (hl : layerNbh dev eps cin cout radius = .ok h) (calls : List (ConvCall K cin.n))
    (hbw : ∀ a ∈ calls, a.bw = bw) :
    ConvCall.reuse (cout := cout) ker act dev h radius none calls =
      calls.map (fun a => a.alone ker act dev eps radius) := by
  have key : ∀ (calls : List (ConvCall K cin.n)) (s : Option (List K)), (∀ a ∈ calls, a.bw = bw) →
      (s = none ∨ s = (h.runGet ker dev none ⟨fun _ => bw, .constant, false⟩).2) →
      ConvCall.reuse (cout := cout) ker act dev h radius s calls =
        calls.map (fun a => a.alone ker act dev eps radius) := by
    intro calls
    induction calls with
    | nil => intro s _ _; rfl
    | cons a rest ih =>
      intro s hb hs
      have ha := hb a (by simp)
      have hw : a.withNbh (cout := cout) ker act dev h radius s =
          a.withNbh (cout := cout) ker act dev h radius none := by
        rcases hs with rfl | rfl
        · rfl
        · rw [← ha]; exact withNbh_again ker act dev radius h a
      simp only [ConvCall.reuse, List.map_cons, hw]
      rw [withNbh_none ker act dev eps radius hl, ih _ (fun b hb' => hb b (by simp [hb']))]
      right
      rw [withNbh_state, ha]
  exact key calls none hbw (.inl rfl)

theorem rawPdf_flag (ker : K → K) (dev : Device) (g : Grid (k + 2) K) (radii : Fin (k + 2) → K)
    (nb : Pairs g.c.n g.sortedCloud.n) (hf : findNeighbors dev g g.sortedCloud radii = .ok nb)
    (bw : Fin (k + 2) → K) (mode : KDEMode) :
    (⟨g, radii, g.sortedCloud, true, nb⟩ : Nbh k K).rawPdf ker dev bw mode =
      (⟨g, radii, g.sortedCloud, false, nb⟩ : Nbh k K).rawPdf ker dev bw mode := by
  unfold Nbh.rawPdf Nbh.new
  simp only [hf, if_true, Bool.false_eq_true, if_false]
  split
  · rfl
  · congr 1
    refine List.map_congr_left (fun p _ => ?_)
    rw [dif_pos p.1.isLt]

theorem withNbh_flag {cin cout : Cloud (Fin (k + 2) → K)} (ker act : K → K) (dev : Device) (g : Grid (k + 2) K)
    (radii : Fin (k + 2) → K) (radius : K)
    (nb : Pairs g.c.n g.sortedCloud.n) (hf : findNeighbors dev g g.sortedCloud radii = .ok nb)
    (s : Option (List K)) (a : ConvCall K cin.n) :
    a.withNbh (cout := cout) ker act dev ⟨g, radii, g.sortedCloud, true, nb⟩ radius s =
      a.withNbh (cout := cout) ker act dev ⟨g, radii, g.sortedCloud, false, nb⟩ radius s := by
  have hg : ∀ b, (⟨g, radii, g.sortedCloud, true, nb⟩ : Nbh k K).runGet ker dev s b =
      (⟨g, radii, g.sortedCloud, false, nb⟩ : Nbh k K).runGet ker dev s b := by
    intro b
    unfold Nbh.runGet Nbh.computePdf
    rw [rawPdf_flag ker dev g radii nb hf]
  cases a <;> simp only [ConvCall.withNbh] <;> rw [hg] <;> rfl

/-- **C117, neighbourhoods without sample cloud.** `Neighborhood(grid, radius)`
may be passed to layers whose output cloud is the cloud of the sorted points: the
results are those of the calls without `neighborhood`. -/
theorem C117_no_sample_sorted {c : Cloud (Fin (k + 2) → K)} (ker act : K → K) (dev : Device) (eps radius bw : K)
    {h : Nbh k K} (hl : Nbh.new dev ⟨c, fun _ => radius, eps⟩ (fun _ => radius) none = .ok h)
    (calls : List (ConvCall K c.n)) (hbw : ∀ a ∈ calls, a.bw = bw) :
    ConvCall.reuse (cin := c) (cout := Grid.sortedCloud ⟨c, fun _ => radius, eps⟩) ker act dev h radius none calls =
      calls.map (fun a => a.alone ker act dev eps radius) := by
  unfold Nbh.new at hl
  dsimp only at hl
  cases hf : findNeighbors dev (⟨c, fun _ => radius, eps⟩ : Grid (k + 2) K)
      (Grid.sortedCloud ⟨c, fun _ => radius, eps⟩) (fun _ => radius) with
  | error e => rw [hf] at hl; simp at hl
  | ok nb =>
    rw [hf] at hl
    simp only [Except.ok.injEq] at hl
    subst hl
    rw [← C117_reuse_partial (cout := Grid.sortedCloud ⟨c, fun _ => radius, eps⟩) ker act dev eps radius bw
      (h := ⟨⟨c, fun _ => radius, eps⟩, fun _ => radius, Grid.sortedCloud ⟨c, fun _ => radius, eps⟩, false, nb⟩)
      (by unfold layerNbh Nbh.new; simp only [hf]) calls hbw]
    generalize (none : Option (List K)) = s
    clear hbw
    induction calls generalizing s with
    | nil => rfl
    | cons a rest ih =>
      simp only [ConvCall.reuse]
      rw [withNbh_flag ker act dev _ _ radius nb hf, ih]

/-- **C117, neighbourhoods without sample cloud, for the cloud itself**: correct if
the points happen to be in the order of the grid.  Missing: any other order,
`C117_no_sample_false`. -/
theorem C117_no_sample_partial {c : Cloud (Fin (k + 2) → K)} (ker act : K → K) (dev : Device) (eps radius bw : K)
    {h : Nbh k K} (hl : Nbh.new dev ⟨c, fun _ => radius, eps⟩ (fun _ => radius) none = .ok h)
    (hs : Grid.sortedCloud (⟨c, fun _ => radius, eps⟩ : Grid (k + 2) K) = c)
    (calls : List (ConvCall K c.n)) (hbw : ∀ a ∈ calls, a.bw = bw) :
    ConvCall.reuse (cin := c) (cout := c) ker act dev h radius none calls =
      calls.map (fun a => a.alone ker act dev eps radius) := by
  have := C117_no_sample_sorted ker act dev eps radius bw hl calls hbw
  rw [hs] at this
  exact this

end

/-! ### Where reuse fails -/

/-- A layer with one hidden unit that ignores its input. -/
abbrev ruLayer : MCLayer ℚ := ⟨1, 1, 1, [⟨1, fun _ _ _ => 0, fun _ _ => 1⟩], fun _ _ _ => 1⟩

/-- Two points, far apart; the grid sorts cells in descending order. -/
abbrev ruCloud : Cloud (Fin 2 → ℚ) := ⟨2, ![![0, 0], ![3, 0]], fun _ => 0, 1⟩

/-- Features of the two points. -/
abbrev ruFeats : Fin 2 → ℕ → ℚ := fun i _ => if i = 0 then 10 else 20

/-- The neighbourhood of the notebook: no sample cloud. -/
abbrev ruNbh : Except Err (Nbh 0 ℚ) := Nbh.new .gpu ⟨ruCloud, fun _ => 1, 1/100⟩ (fun _ => 1) none

/-- **C117, negation without sample cloud**: passing `Neighborhood(grid, radius)`
to a layer from a cloud to itself (as in `Introduction.ipynb`, cells 32 and 36) gives
other values than the call without it: the rows are in the order of the grid. -/
theorem C117_no_sample_false : ¬ ∀ (ker act : ℚ → ℚ) (_ : ∀ x, 0 < ker x) (c : Cloud (Fin 2 → ℚ)) (eps radius bw : ℚ)
    (_ : LayerOk c c radius eps) (_ : 0 < bw) (h : Nbh 0 ℚ)
    (_ : Nbh.new .gpu ⟨c, fun _ => radius, eps⟩ (fun _ => radius) none = .ok h)
    (calls : List (ConvCall ℚ c.n)) (_ : ∀ a ∈ calls, a.bw = bw),
    ConvCall.reuse (k := 0) (cin := c) (cout := c) ker act .gpu h radius none calls =
      calls.map (fun a => a.alone (k := 0) ker act .gpu eps radius) := by
  intro hall
  have key : (match ruNbh with
      | .error _ => false
      | .ok h => decide ((ConvCall.reuse (k := 0) (cin := ruCloud) (cout := ruCloud) (fun _ => 1) (fun x => x) .gpu h 1 none
          [.mc ruLayer 1 ruFeats]).map (fun r => r.map (fun o => o 0 0)) = [.ok 20])) = true := by decide +kernel
  have key2 : ([ConvCall.mc ruLayer 1 ruFeats].map (fun a =>
      a.alone (k := 0) (cin := ruCloud) (cout := ruCloud) (fun _ => 1) (fun x => x) .gpu (1/100) 1)).map
        (fun r => r.map (fun o => o 0 0)) = [.ok 10] := by decide +kernel
  cases hh : ruNbh with
  | error e => rw [hh] at key; simp at key
  | ok h =>
    rw [hh] at key
    have := hall (fun _ => 1) (fun x => x) (fun _ => one_pos) ruCloud (1/100) 1 1
      ⟨by decide +kernel, one_pos, by norm_num⟩ one_pos h hh [.mc ruLayer 1 ruFeats] (by simp [ConvCall.bw])
    have h1 := of_decide_eq_true key
    rw [this, key2] at h1
    revert h1
    decide

/-- The same points in the order of the grid. -/
abbrev ruSorted : Cloud (Fin 2 → ℚ) := ⟨2, ![![3, 0], ![0, 0]], fun _ => 0, 1⟩

/-- The hypotheses of the partial theorems can be met. -/
example : (∃ h, Nbh.new .gpu (⟨ruSorted, fun _ => 1, 1/100⟩ : Grid 2 ℚ) (fun _ => 1) none = .ok h) ∧
    Grid.sortedCloud (k := 0) ⟨ruSorted, fun _ => 1, 1/100⟩ = ruSorted := by
  constructor
  · have : (Nbh.new (k := 0) .gpu (⟨ruSorted, fun _ => 1, 1/100⟩ : Grid 2 ℚ) (fun _ => 1) none).toBool = true := by
      decide +kernel
    revert this
    cases Nbh.new (k := 0) .gpu (⟨ruSorted, fun _ => 1, 1/100⟩ : Grid 2 ℚ) (fun _ => 1) none with
    | error e => intro h; cases h
    | ok h => intro _; exact ⟨h, rfl⟩
  · have h1 : ∀ (i : Fin 2) (d : Fin 2), Grid.sortedPts (⟨ruSorted, fun _ => 1, 1/100⟩ : Grid 2 ℚ) i d =
        ruSorted.pts i d := by decide +kernel
    unfold Grid.sortedCloud
    have h2 : Grid.sortedPts (⟨ruSorted, fun _ => 1, 1/100⟩ : Grid 2 ℚ) = ruSorted.pts := by
      funext i d; exact h1 i d
    rw [h2]
    rfl

/-- **C117, negation for different bandwidths**: the second layer uses the
densities of the first. -/
theorem C117_bandwidth_false : ¬ ∀ (ker act : ℚ → ℚ) (_ : ∀ x, 0 < ker x) (c : Cloud (Fin 2 → ℚ)) (eps radius : ℚ)
    (_ : LayerOk c c radius eps) (h : Nbh 0 ℚ) (_ : layerNbh .gpu eps c c radius = .ok h)
    (calls : List (ConvCall ℚ c.n)) (_ : ∀ a ∈ calls, 0 < a.bw),
    ConvCall.reuse (k := 0) (cin := c) (cout := c) ker act .gpu h radius none calls =
      calls.map (fun a => a.alone (k := 0) ker act .gpu eps radius) := by
  intro hall
  have key : (match (layerNbh .gpu (1/100) ruCloud ruCloud 1 : Except Err (Nbh 0 ℚ)) with
      | .error _ => false
      | .ok h => decide ((ConvCall.reuse (k := 0) (cin := ruCloud) (cout := ruCloud) (fun _ => 1) (fun x => x) .gpu h 1 none
          [.mc ruLayer 1 ruFeats, .mc ruLayer 2 ruFeats]).map (fun r => r.map (fun o => o 0 0)) =
            [.ok 10, .ok 10])) = true := by decide +kernel
  have key2 : ([ConvCall.mc ruLayer 1 ruFeats, .mc ruLayer 2 ruFeats].map (fun a =>
      a.alone (k := 0) (cin := ruCloud) (cout := ruCloud) (fun _ => 1) (fun x => x) .gpu (1/100) 1)).map
        (fun r => r.map (fun o => o 0 0)) = [.ok 10, .ok 40] := by decide +kernel
  cases hh : (layerNbh .gpu (1/100) ruCloud ruCloud 1 : Except Err (Nbh 0 ℚ)) with
  | error e => rw [hh] at key; simp at key
  | ok h =>
    rw [hh] at key
    have := hall (fun _ => 1) (fun x => x) (fun _ => one_pos) ruCloud (1/100) 1
      ⟨by decide +kernel, one_pos, by norm_num⟩ h hh [.mc ruLayer 1 ruFeats, .mc ruLayer 2 ruFeats]
      (by simp [ConvCall.bw])
    have h1 := of_decide_eq_true key
    rw [this, key2] at h1
    revert h1
    decide

end PC
