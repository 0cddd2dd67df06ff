import Verif.Props.Train
import Verif.Tutorial

/-!
# Properties C130, C131: data generator and learning rate of the tutorial notebook
-/

set_option linter.unusedVariables false
set_option linter.unusedSectionVars false

namespace PC

section
variable {α : Type*}

/-! ## C130: the data generator -/

theorem takeIdx_ok (l : List α) : ∀ (js : List ℕ), (∀ j ∈ js, j < l.length) →
    ∃ r, takeIdx l js = .ok r ∧ r.map some = js.map (fun j => l[j]?)
  | [], _ => ⟨[], rfl, rfl⟩
  | j :: js, h => by
    obtain ⟨r, h1, h2⟩ := takeIdx_ok l js (fun x hx => h x (by simp [hx]))
    have hj := h j (by simp)
    refine ⟨l[j] :: r, ?_, ?_⟩
    · rw [takeIdx, List.getElem?_eq_getElem hj]
      simp only [h1]
    · rw [List.map_cons, List.map_cons, h2, List.getElem?_eq_getElem hj]

theorem map_some_getElem? {r : List α} {js : List ℕ} {l : List α} (h : r.map some = js.map (fun j => l[j]?)) (i : ℕ) :
    r[i]? = (js[i]?).bind (fun j => l[j]?) := by
  have h1 := congrArg (fun t => t[i]?) h
  simp only [List.getElem?_map] at h1
  cases hr : r[i]? with
  | none =>
    rw [hr] at h1
    cases hj : js[i]? with
    | none => rfl
    | some j => rw [hj] at h1; simp at h1
  | some x =>
    rw [hr] at h1
    cases hj : js[i]? with
    | none => rw [hj] at h1; simp at h1
    | some j =>
      rw [hj] at h1
      simpa using h1

/-- Invariant: the arrays of the generator are the original ones, both rearranged by
the same permutation `ids`. -/
structure TutInv (points : List (List α)) (labels : List ℕ) (B : ℕ) (ids : List ℕ) (g : GenTut α) : Prop where
  perm : ids.Perm (List.range points.length)
  pts : ∀ i : ℕ, g.points[i]? = (ids[i]?).bind (fun j => points[j]?)
  labs : ∀ i : ℕ, g.labels[i]? = (ids[i]?).bind (fun j => labels[j]?)
  ptsLen : g.points.length = points.length
  labsLen : g.labels.length = points.length
  size : g.B = B
  epoch : g.epochSize = points.length

theorem perm_compose {n : ℕ} {ids perm : List ℕ} (h : ids.Perm (List.range n)) (hp : perm.Perm (List.range n)) :
    (perm.map (fun j => ids.getD j 0)).Perm (List.range n) := by
  refine (hp.map _).trans (List.Perm.trans ?_ h)
  have hl : ids.length = n := by rw [h.length_eq, List.length_range]
  have : (List.range n).map (fun j => ids.getD j 0) = ids := by
    apply List.ext_getElem?
    intro i
    rw [List.getElem?_map]
    by_cases hi : i < n
    · rw [List.getElem?_range hi, List.getElem?_eq_getElem (by omega), Option.map_some, List.getD_eq_getElem?_getD,
        List.getElem?_eq_getElem (by omega), Option.getD_some]
    · rw [List.getElem?_eq_none (by rw [List.length_range]; omega), List.getElem?_eq_none (by omega), Option.map_none]
  rw [this]

theorem TutInv.epochEnd {points : List (List α)} {labels : List ℕ} {B : ℕ} {ids : List ℕ} {g : GenTut α}
    (h : TutInv points labels B ids g) {perm : List ℕ} (hp : perm.Perm (List.range points.length)) :
    ∃ g', g.onEpochEnd perm = (.ok (), g') ∧ g'.index = 0 ∧
      TutInv points labels B (perm.map (fun j => ids.getD j 0)) g' := by
  have hlt : ∀ j ∈ perm, j < points.length := fun j hj => List.mem_range.1 (hp.mem_iff.1 hj)
  have hpl : perm.length = points.length := by rw [hp.length_eq, List.length_range]
  have hil : ids.length = points.length := by rw [h.perm.length_eq, List.length_range]
  obtain ⟨ps, a1, a2⟩ := takeIdx_ok g.points perm (fun j hj => by rw [h.ptsLen]; exact hlt j hj)
  obtain ⟨ls, b1, b2⟩ := takeIdx_ok g.labels perm (fun j hj => by rw [h.labsLen]; exact hlt j hj)
  have hc : ∀ i : ℕ, (perm.map (fun j => ids.getD j 0))[i]? = (perm[i]?).bind (fun j => ids[j]?) := by
    intro i
    rw [List.getElem?_map]
    cases hj : perm[i]? with
    | none => rfl
    | some j =>
      have := hlt j (List.mem_of_getElem? hj)
      rw [Option.map_some, Option.bind_some, List.getD_eq_getElem?_getD, List.getElem?_eq_getElem (by omega), Option.getD_some]
  refine ⟨{ g with points := ps, labels := ls, index := 0 }, ?_, rfl, perm_compose h.perm hp, ?_, ?_, ?_, ?_, h.size, h.epoch⟩
  · unfold GenTut.onEpochEnd
    rw [a1]
    dsimp only
    rw [b1]
  · intro i
    show ps[i]? = _
    rw [map_some_getElem? a2, hc]
    cases hj : perm[i]? with
    | none => rfl
    | some j => rw [Option.bind_some, Option.bind_some, h.pts]
  · intro i
    show ls[i]? = _
    rw [map_some_getElem? b2, hc]
    cases hj : perm[i]? with
    | none => rfl
    | some j => rw [Option.bind_some, Option.bind_some, h.labs]
  · have := congrArg List.length a2
    simpa [hpl] using this
  · have := congrArg List.length b2
    simpa [hpl] using this

/-- Specification: the permutations drawn in a history are permutations of the
models. -/
def TutCall.Valid (n : ℕ) : TutCall → Prop
  | .epochEnd perm => perm.Perm (List.range n)
  | _ => True

theorem TutInv.after {points : List (List α)} {labels : List ℕ} {B : ℕ} {ids : List ℕ} {g : GenTut α}
    (h : TutInv points labels B ids g) (V : ℕ) (c : TutCall) (hc : c.Valid points.length) :
    ∃ ids', TutInv points labels B ids' (g.after V c) := by
  cases c with
  | call sel =>
    refine ⟨ids, ?_⟩
    unfold GenTut.after GenTut.call
    dsimp only
    split
    · exact h
    · exact ⟨h.perm, h.pts, h.labs, h.ptsLen, h.labsLen, h.size, h.epoch⟩
  | getItem i sel => exact ⟨ids, h⟩
  | epochEnd perm =>
    obtain ⟨g', e, _, h'⟩ := h.epochEnd hc
    refine ⟨perm.map (fun j => ids.getD j 0), ?_⟩
    unfold GenTut.after
    dsimp only
    rw [e]
    exact h'

theorem TutInv.history {points : List (List α)} {labels : List ℕ} {B V : ℕ} (h : List TutCall) :
    ∀ {ids : List ℕ} {g : GenTut α}, TutInv points labels B ids g → (∀ c ∈ h, c.Valid points.length) →
    ∃ ids', TutInv points labels B ids' (h.foldl (GenTut.after V) g) := by
  induction h with
  | nil => intro ids g hg _; exact ⟨ids, hg⟩
  | cons c h ih =>
    intro ids g hg hc
    obtain ⟨ids', h'⟩ := hg.after V c (hc c (by simp))
    exact ih h' (fun c hx => hc c (by simp [hx]))

theorem TutInv.new (points : List (List α)) (labels : List ℕ) (B : ℕ) (hl : labels.length = points.length)
    (perm : List ℕ) (hp : perm.Perm (List.range points.length)) :
    ∃ g ids, GenTut.new points labels B perm = .ok g ∧ g.index = 0 ∧ TutInv points labels B ids g := by
  have h0 : TutInv points labels B (List.range points.length) ⟨points, labels, B, points.length, 0⟩ := by
    refine ⟨List.Perm.refl _, ?_, ?_, rfl, hl, rfl, rfl⟩
    · intro i
      show points[i]? = _
      by_cases hi : i < points.length
      · rw [List.getElem?_range hi, Option.bind_some]
      · rw [List.getElem?_eq_none (by omega), List.getElem?_eq_none (by rw [List.length_range]; omega), Option.bind_none]
    · intro i
      show labels[i]? = _
      by_cases hi : i < points.length
      · rw [List.getElem?_range hi, Option.bind_some]
      · rw [List.getElem?_eq_none (by omega), List.getElem?_eq_none (by rw [List.length_range]; omega), Option.bind_none]
  obtain ⟨g', e, e0, h'⟩ := h0.epochEnd hp
  refine ⟨g', _, ?_, e0, h'⟩
  unfold GenTut.new
  rw [e]

/-- **C130, pairing**: after every history of method calls, whatever permutations were
drawn, points and labels are still those of the data set, each model with its own
label, every model exactly once. -/
theorem C130_pairing (points : List (List α)) (labels : List ℕ) (B V : ℕ) (hl : labels.length = points.length)
    (perm0 : List ℕ) (hp0 : perm0.Perm (List.range points.length)) (h : List TutCall)
    (hc : ∀ c ∈ h, c.Valid points.length) :
    ∃ g0, GenTut.new points labels B perm0 = .ok g0 ∧
      ((h.foldl (GenTut.after V) g0).points.zip (h.foldl (GenTut.after V) g0).labels).Perm (points.zip labels) := by
  obtain ⟨g0, ids0, e, _, h0⟩ := TutInv.new points labels B hl perm0 hp0
  obtain ⟨ids, hi⟩ := h0.history (V := V) h hc
  refine ⟨g0, e, ?_⟩
  set g := h.foldl (GenTut.after V) g0
  have hil : ids.length = points.length := by rw [hi.perm.length_eq, List.length_range]
  have hz : ∀ i : ℕ, (points.zip labels)[i]? = (points[i]?).bind (fun p => (labels[i]?).map (fun l => (p, l))) := by
    intro i
    by_cases hi : i < points.length
    · have h2 : i < labels.length := by omega
      have h3 : i < (points.zip labels).length := by simp; omega
      rw [List.getElem?_eq_getElem hi, List.getElem?_eq_getElem h2, List.getElem?_eq_getElem h3]
      simp
    · rw [List.getElem?_eq_none (by simp; omega), List.getElem?_eq_none (by omega), Option.bind_none]
  have e1 : (g.points.zip g.labels).map some = ids.map (fun j => (points.zip labels)[j]?) := by
    apply List.ext_getElem?
    intro i
    rw [List.getElem?_map, List.getElem?_map]
    by_cases hlt : i < points.length
    · have a1 : i < g.points.length := by rw [hi.ptsLen]; exact hlt
      have a2 : i < g.labels.length := by rw [hi.labsLen]; exact hlt
      have a3 : i < (g.points.zip g.labels).length := by simp; omega
      have a4 : i < ids.length := by omega
      have b1 := hi.pts i
      have b2 := hi.labs i
      rw [List.getElem?_eq_getElem a1, List.getElem?_eq_getElem a4, Option.bind_some] at b1
      rw [List.getElem?_eq_getElem a2, List.getElem?_eq_getElem a4, Option.bind_some] at b2
      rw [List.getElem?_eq_getElem a3, List.getElem?_eq_getElem a4, Option.map_some, Option.map_some, hz, ← b1, ← b2]
      simp
    · rw [List.getElem?_eq_none (by simp [hi.ptsLen]; omega), List.getElem?_eq_none (by omega)]
      rfl
  have e2 : (points.zip labels).map some = (List.range points.length).map (fun j => (points.zip labels)[j]?) := by
    apply List.ext_getElem?
    intro i
    rw [List.getElem?_map, List.getElem?_map]
    by_cases hlt : i < points.length
    · have h3 : i < (points.zip labels).length := by simp; omega
      rw [List.getElem?_range hlt, List.getElem?_eq_getElem h3, Option.map_some, Option.map_some, List.getElem?_eq_getElem h3]
    · rw [List.getElem?_eq_none (by simp; omega), List.getElem?_eq_none (by rw [List.length_range]; omega)]
      rfl
  have e3 : ((g.points.zip g.labels).map some).Perm ((points.zip labels).map some) := by
    rw [e1, e2]
    exact hi.perm.map _
  have e4 := e3.filterMap id
  simpa [List.filterMap_map] using e4

/-- Specification: batch number `i` of a data set whose models are taken in the order
`ids`: `B` rows; row `q` holds, in the order of the selection drawn for it, points
of model `ids[i*B+q]`, next to the label of the same model; features are ones. -/
def IsTutBatch (points : List (List α)) (labels : List ℕ) (B V : ℕ) (ids : List ℕ) (i : ℕ) (sel : ℕ → List ℕ)
    (b : TutBatch α) : Prop :=
  b.points.length = B ∧ b.labels.length = B ∧ b.features = List.replicate B (List.replicate V [1]) ∧
    ∀ q < B, ∃ j pts lab row, ids[i * B + q]? = some j ∧ points[j]? = some pts ∧ labels[j]? = some lab ∧
      b.points[q]? = some row ∧ b.labels[q]? = some lab ∧ row.length = V ∧
      ∀ m < V, ∃ s p, (sel q)[m]? = some s ∧ pts[s]? = some p ∧ row[m]? = some p

/-- Specification: a possible result of `np.random.choice(np.arange(0, P), V)` for every
row. -/
def SelOk (P V : ℕ) (sel : ℕ → List ℕ) : Prop := ∀ q, (sel q).length = V ∧ ∀ s ∈ sel q, s < P

theorem tutRows_ok {P V : ℕ} (slice : List (List α)) (hP : ∀ pts ∈ slice, P ≤ pts.length) {sel : ℕ → List ℕ}
    (hs : SelOk P V sel) : ∀ (m b : ℕ), b + m ≤ slice.length →
    ∃ r, tutRows slice sel b m = .ok r ∧ r.length = m ∧ ∀ i < m, ∃ pts row, slice[b + i]? = some pts ∧
      r[i]? = some row ∧ row.map some = (sel (b + i)).map (fun j => pts[j]?)
  | 0, b, _ => ⟨[], rfl, rfl, fun i hi => absurd hi (by omega)⟩
  | m + 1, b, hb => by
    obtain ⟨r, h1, h2, h3⟩ := tutRows_ok slice hP hs m (b + 1) (by omega)
    have hlt : b < slice.length := by omega
    obtain ⟨row, r1, r2⟩ := takeIdx_ok slice[b] (sel b)
      (fun j hj => lt_of_lt_of_le ((hs b).2 j hj) (hP _ (List.getElem_mem hlt)))
    refine ⟨row :: r, ?_, by simp [h2], ?_⟩
    · rw [tutRows, List.getElem?_eq_getElem hlt]
      simp only [r1, h1]
    · intro i hi
      cases i with
      | zero => exact ⟨slice[b], row, List.getElem?_eq_getElem hlt, rfl, r2⟩
      | succ i =>
        obtain ⟨pts, row', a1, a2, a3⟩ := h3 i (by omega)
        have e : b + (i + 1) = b + 1 + i := by omega
        rw [e]
        exact ⟨pts, row', a1, a2, a3⟩

theorem tutRows_short {P V : ℕ} (slice : List (List α)) (hP : ∀ pts ∈ slice, P ≤ pts.length) {sel : ℕ → List ℕ}
    (hs : SelOk P V sel) : ∀ (m b : ℕ), b ≤ slice.length → slice.length < b + m →
    tutRows slice sel b m = .error .indexError
  | 0, b, h1, h2 => absurd h1 (by omega)
  | m + 1, b, h1, h2 => by
    rw [tutRows]
    by_cases hlt : b < slice.length
    · obtain ⟨row, r1, r2⟩ := takeIdx_ok slice[b] (sel b)
        (fun j hj => lt_of_lt_of_le ((hs b).2 j hj) (hP _ (List.getElem_mem hlt)))
      rw [List.getElem?_eq_getElem hlt]
      simp only [r1, tutRows_short slice hP hs m (b + 1) (by omega) (by omega)]
    · rw [List.getElem?_eq_none (by omega)]

theorem TutInv.memPoints {points : List (List α)} {labels : List ℕ} {B : ℕ} {ids : List ℕ} {g : GenTut α}
    (h : TutInv points labels B ids g) {p : List α} (hp : p ∈ g.points) : p ∈ points := by
  obtain ⟨i, hi⟩ := List.mem_iff_getElem?.1 hp
  rw [h.pts] at hi
  cases hj : ids[i]? with
  | none => rw [hj] at hi; simp at hi
  | some j =>
    rw [hj, Option.bind_some] at hi
    exact List.mem_of_getElem? hi

theorem TutInv.item {points : List (List α)} {labels : List ℕ} {B : ℕ} {ids : List ℕ} {g : GenTut α}
    (h : TutInv points labels B ids g) (hl : labels.length = points.length) (hB : 0 < B) {P V : ℕ}
    (hP : ∀ pts ∈ points, P ≤ pts.length) {sel : ℕ → List ℕ} (hs : SelOk P V sel) (i : ℕ) :
    (i < points.length / B → ∃ b, g.getItem V i sel = .ok b ∧ IsTutBatch points labels B V ids i sel b) ∧
    (points.length / B ≤ i → g.getItem V i sel = .error .indexError) := by
  have e : (i + 1) * B - i * B = B := by rw [Nat.succ_mul]; omega
  have hPs : ∀ pts ∈ (g.points.drop (i * B)).take B, P ≤ pts.length := fun pts hp =>
    hP _ (h.memPoints (List.mem_of_mem_drop (List.mem_of_mem_take hp)))
  constructor
  · intro hi
    have hN : (i + 1) * B ≤ points.length := (Nat.le_div_iff_mul_le hB).1 hi
    rw [Nat.succ_mul] at hN
    have hlen : ((g.points.drop (i * B)).take B).length = B := by
      rw [List.length_take, List.length_drop, h.ptsLen]
      omega
    obtain ⟨r, r1, r2, r3⟩ := tutRows_ok _ hPs hs B 0 (by omega)
    refine ⟨⟨r, List.replicate B (List.replicate V [1]), (g.labels.drop (i * B)).take B⟩, ?_, r2, ?_, rfl, ?_⟩
    · unfold GenTut.getItem
      rw [h.size, e]
      dsimp only
      rw [r1]
    · show ((g.labels.drop (i * B)).take B).length = B
      rw [List.length_take, List.length_drop, h.labsLen]
      omega
    · intro q hq
      obtain ⟨pts, row, a1, a2, a3⟩ := r3 q hq
      rw [Nat.zero_add] at a1 a3
      rw [List.getElem?_take, if_pos hq, List.getElem?_drop, h.pts] at a1
      cases hj : ids[i * B + q]? with
      | none => rw [hj] at a1; simp at a1
      | some j =>
        rw [hj, Option.bind_some] at a1
        have hjn : j < points.length := by
          by_contra hc
          rw [List.getElem?_eq_none (by omega)] at a1
          cases a1
        have hjl : j < labels.length := by omega
        have hrl : row.length = V := by
          have := congrArg List.length a3
          rw [List.length_map, List.length_map, (hs q).1] at this
          exact this
        refine ⟨j, pts, labels[j], row, rfl, a1, List.getElem?_eq_getElem hjl, a2, ?_, hrl, ?_⟩
        · show ((g.labels.drop (i * B)).take B)[q]? = _
          rw [List.getElem?_take, if_pos hq, List.getElem?_drop, h.labs, hj, Option.bind_some,
            List.getElem?_eq_getElem hjl]
        · intro m hm
          have h1 := map_some_getElem? a3 m
          have hms : m < (sel q).length := by rw [(hs q).1]; exact hm
          rw [List.getElem?_eq_getElem (by omega), List.getElem?_eq_getElem hms, Option.bind_some] at h1
          exact ⟨(sel q)[m], row[m], List.getElem?_eq_getElem hms, h1.symm, List.getElem?_eq_getElem _⟩
  · intro hi
    have hN : points.length < (i + 1) * B := (Nat.div_lt_iff_lt_mul hB).1 (Nat.lt_succ_of_le hi)
    rw [Nat.succ_mul] at hN
    unfold GenTut.getItem
    rw [h.size, e]
    dsimp only
    rw [tutRows_short _ hPs hs B 0 (Nat.zero_le _) (by
      rw [List.length_take, List.length_drop, h.ptsLen]
      omega)]

/-- **C130, training**: after every history of method calls there is an order `ids` of
all models (each exactly once) such that in *every* epoch of a training of any length
the pass delivers `⌊n/B⌋` batches and batch `i` consists of the models
`ids[i*B], ..., ids[i*B+B-1]`, each row with points and label of the same model. -/
theorem C130_training (points : List (List α)) (labels : List ℕ) (B P V : ℕ) (hl : labels.length = points.length)
    (hB : 0 < B) (hP : ∀ pts ∈ points, P ≤ pts.length) (perm0 : List ℕ)
    (hp0 : perm0.Perm (List.range points.length)) (h : List TutCall) (hc : ∀ c ∈ h, c.Valid points.length) :
    ∃ g0, GenTut.new points labels B perm0 = .ok g0 ∧
      ∃ ids : List ℕ, ids.Perm (List.range points.length) ∧
      ∀ (E : ℕ) (sel : ℕ → ℕ → ℕ → List ℕ), (∀ e i, SelOk P V (sel e i)) →
        ∃ out, (h.foldl (GenTut.after V) g0).train V E sel = .ok out ∧ out.length = E ∧
        ∀ e < E, ∃ bs, out[e]? = some bs ∧ bs.length = points.length / B ∧
          ∀ i < points.length / B, ∃ b, bs[i]? = some b ∧ IsTutBatch points labels B V ids i (sel e i) b := by
  obtain ⟨g0, ids0, e, _, h0⟩ := TutInv.new points labels B hl perm0 hp0
  obtain ⟨ids, hi⟩ := h0.history (V := V) h hc
  refine ⟨g0, e, ids, hi.perm, ?_⟩
  intro E sel hsel
  have hlen : (h.foldl (GenTut.after V) g0).len = points.length / B := by
    unfold GenTut.len
    rw [hi.size, hi.epoch]
  refine collect_range E (fun e => (h.foldl (GenTut.after V) g0).pass V (sel e))
    (fun e bs => bs.length = points.length / B ∧ ∀ i < points.length / B, ∃ b, bs[i]? = some b ∧
      IsTutBatch points labels B V ids i (sel e i) b) ?_
  intro e _
  obtain ⟨bs, b1, b2, b3⟩ := collect_range (points.length / B) (fun i => (h.foldl (GenTut.after V) g0).getItem V i (sel e i))
    (fun i b => IsTutBatch points labels B V ids i (sel e i) b)
    (fun i hlt => (hi.item hl hB hP (hsel e i) i).1 hlt)
  refine ⟨bs, ?_, b2, b3⟩
  unfold GenTut.pass
  rw [hlen]
  exact b1

/-- Specification: a history without `on_epoch_end` whose selections are possible. -/
def TutQuiet (P V : ℕ) : List TutCall → Prop
  | [] => True
  | .epochEnd _ :: _ => False
  | .call sel :: h => SelOk P V sel ∧ TutQuiet P V h
  | .getItem _ _ :: h => TutQuiet P V h

/-- Number of `__call__`s of a history. -/
def tutCalls : List TutCall → ℕ
  | [] => 0
  | .call _ :: h => tutCalls h + 1
  | _ :: h => tutCalls h

theorem TutInv.quiet {points : List (List α)} {labels : List ℕ} {B : ℕ} {ids : List ℕ}
    (hl : labels.length = points.length) (hB : 0 < B) {P V : ℕ}
    (hP : ∀ pts ∈ points, P ≤ pts.length) (h : List TutCall) : ∀ (g : GenTut α), TutInv points labels B ids g →
    TutQuiet P V h → g.index ≤ points.length / B →
    h.foldl (GenTut.after V) g = { g with index := min (g.index + tutCalls h) (points.length / B) } := by
  induction h with
  | nil =>
    intro g _ _ hi
    simp only [List.foldl_nil, tutCalls, Nat.add_zero, Nat.min_eq_left hi]
  | cons x h ih =>
    intro g hg hq hi
    rw [List.foldl_cons]
    cases x with
    | call sel =>
      obtain ⟨hs, hq⟩ := hq
      rcases Nat.lt_or_ge g.index (points.length / B) with hlt | hge
      · obtain ⟨b, hb, _⟩ := (hg.item hl hB hP hs g.index).1 hlt
        have e : GenTut.after V g (.call sel) = { g with index := g.index + 1 } := by
          show (g.call V sel).2 = _
          unfold GenTut.call
          rw [hb]
        rw [e, ih { g with index := g.index + 1 } ⟨hg.perm, hg.pts, hg.labs, hg.ptsLen, hg.labsLen, hg.size, hg.epoch⟩ hq hlt]
        have e2 : g.index + 1 + tutCalls h = g.index + (tutCalls h + 1) := by omega
        simp only [tutCalls]
        rw [e2]
      · have e : GenTut.after V g (.call sel) = g := by
          show (g.call V sel).2 = _
          unfold GenTut.call
          rw [(hg.item hl hB hP hs g.index).2 hge]
        rw [e, ih g hg hq hi]
        have e3 : min (g.index + tutCalls h) (points.length / B) =
            min (g.index + tutCalls (TutCall.call sel :: h)) (points.length / B) := by
          rw [Nat.min_eq_right (by omega), Nat.min_eq_right (by omega)]
        rw [e3]
    | getItem i sel => exact ih g hg hq hi
    | epochEnd perm => exact absurd hq (by simp [TutQuiet])

/-- **C130, successive calls**: after any history, `on_epoch_end` and then any calls and
explicit accesses, the next `__call__` returns the batch whose number is the number of
`__call__`s since then, of an order `ids` of all models fixed by `on_epoch_end`; once
all full batches were delivered it raises `IndexError` and changes nothing. -/
theorem C130_calls (points : List (List α)) (labels : List ℕ) (B P V : ℕ) (hl : labels.length = points.length)
    (hB : 0 < B) (hP : ∀ pts ∈ points, P ≤ pts.length) (perm0 perm : List ℕ)
    (hp0 : perm0.Perm (List.range points.length)) (hp : perm.Perm (List.range points.length)) (h : List TutCall)
    (hc : ∀ c ∈ h, c.Valid points.length) :
    ∃ g0, GenTut.new points labels B perm0 = .ok g0 ∧
      ∃ ids : List ℕ, ids.Perm (List.range points.length) ∧
      ∀ (mid : List TutCall) (sel : ℕ → List ℕ), TutQuiet P V mid → SelOk P V sel →
        let g := mid.foldl (GenTut.after V) ((h.foldl (GenTut.after V) g0).onEpochEnd perm).2
        (tutCalls mid < points.length / B → ∃ b, (g.call V sel).1 = .ok b ∧
          IsTutBatch points labels B V ids (tutCalls mid) sel b) ∧
        (points.length / B ≤ tutCalls mid → g.call V sel = (.error .indexError, g)) := by
  obtain ⟨g0, ids0, e, _, h0⟩ := TutInv.new points labels B hl perm0 hp0
  obtain ⟨ids1, h1⟩ := h0.history (V := V) h hc
  obtain ⟨g2, e2, e3, h2⟩ := h1.epochEnd hp
  refine ⟨g0, e, _, h2.perm, ?_⟩
  intro mid sel hq hs
  rw [e2]
  dsimp only
  have hm := TutInv.quiet hl hB hP mid g2 h2 hq (by rw [e3]; exact Nat.zero_le _)
  rw [e3, Nat.zero_add] at hm
  have hinv : TutInv points labels B (perm.map (fun j => ids1.getD j 0)) (mid.foldl (GenTut.after V) g2) := by
    rw [hm]
    exact ⟨h2.perm, h2.pts, h2.labs, h2.ptsLen, h2.labsLen, h2.size, h2.epoch⟩
  have hidx : (mid.foldl (GenTut.after V) g2).index = min (tutCalls mid) (points.length / B) := by rw [hm]
  constructor
  · intro hk
    rw [Nat.min_eq_left (by omega)] at hidx
    obtain ⟨b, hb, hb2⟩ := (hinv.item hl hB hP hs (tutCalls mid)).1 hk
    refine ⟨b, ?_, hb2⟩
    unfold GenTut.call
    rw [hidx, hb]
  · intro hk
    rw [Nat.min_eq_right hk] at hidx
    unfold GenTut.call
    rw [hidx, (hinv.item hl hB hP hs _).2 le_rfl]

/-- **C130, random subset, partial**: if no index is drawn twice for a row, the points of
the row are a subset of the model: distinct if the points of the model are. Missing:
selections with repetition, see `C130_subset_false`. -/
theorem C130_subset_partial (points : List (List α)) (labels : List ℕ) (B V : ℕ) (ids : List ℕ) (i : ℕ)
    (sel : ℕ → List ℕ) (b : TutBatch α) (hb : IsTutBatch points labels B V ids i sel b)
    (hn : ∀ pts ∈ points, pts.Nodup) (hsel : ∀ q, (sel q).Nodup) : ∀ row ∈ b.points, row.Nodup ∧ row.length = V := by
  intro row hrow
  obtain ⟨q, hq⟩ := List.mem_iff_getElem?.1 hrow
  have hqB : q < B := by
    by_contra hc
    rw [List.getElem?_eq_none (by rw [hb.1]; omega)] at hq
    cases hq
  obtain ⟨j, pts, lab, row', _, h2, _, h4, _, h6, h7⟩ := hb.2.2.2 q hqB
  rw [hq, Option.some.injEq] at h4
  subst h4
  refine ⟨?_, h6⟩
  rw [List.nodup_iff_getElem?_ne_getElem?]
  intro m m' hlt hm' heq
  obtain ⟨s, p, a1, a2, a3⟩ := h7 m (by omega)
  obtain ⟨s', p', a1', a2', a3'⟩ := h7 m' (by omega)
  rw [a3, a3', Option.some.injEq] at heq
  subst heq
  have hnp := hn pts (List.mem_of_getElem? h2)
  have hs : s < pts.length := by
    by_contra hc
    rw [List.getElem?_eq_none (by omega)] at a2
    cases a2
  have hss : s = s' := (List.getElem?_inj hs hnp).1 (a2.trans a2'.symm)
  subst hss
  have hms : m < (sel q).length := by
    by_contra hc
    rw [List.getElem?_eq_none (by omega)] at a1
    cases a1
  have := (List.getElem?_inj hms (hsel q)).1 (a1.trans a1'.symm)
  omega

/-- **C130, random subset, negative**: the sampled points need not be a subset of the
points of the model: indices are drawn with repetition, so a point may be delivered
twice although the model has enough distinct points. -/
theorem C130_subset_false : ¬ ∀ (points : List (List ℕ)) (labels : List ℕ) (B P V : ℕ) (perm0 : List ℕ)
    (g : GenTut ℕ) (sel : ℕ → List ℕ) (b : TutBatch ℕ), labels.length = points.length →
    perm0.Perm (List.range points.length) → (∀ pts ∈ points, P ≤ pts.length ∧ pts.Nodup) → V ≤ P →
    GenTut.new points labels B perm0 = .ok g → SelOk P V sel → g.getItem V 0 sel = .ok b →
    ∀ row ∈ b.points, row.Nodup := by
  intro H
  have := H [[10, 11, 12]] [0] 1 3 2 [0] ⟨[[10, 11, 12]], [0], 1, 1, 0⟩ (fun _ => [1, 1]) ⟨[[11, 11]], [[[1], [1]]], [0]⟩
    rfl (by decide) (by simp) (by omega) rfl (by intro q; simp) rfl [11, 11] (by simp)
  simp at this

/-- The hypotheses of C130 are met: three models, batches of two, a history with a call,
an access and a shuffling. -/
example : ∃ g0, GenTut.new [[10, 11], [20, 21], [30, 31]] [1, 2, 3] 2 [2, 0, 1] = .ok g0 ∧
    ∃ ids : List ℕ, ids.Perm (List.range 3) ∧
      ∀ (mid : List TutCall) (sel : ℕ → List ℕ), TutQuiet 2 3 mid → SelOk 2 3 sel →
        let g := mid.foldl (GenTut.after 3) (([.call (fun _ => [0, 1, 1]), .getItem 7 (fun _ => []),
          .epochEnd [1, 2, 0]].foldl (GenTut.after 3) g0).onEpochEnd [0, 2, 1]).2
        (tutCalls mid < 1 → ∃ b, (g.call 3 sel).1 = .ok b ∧
          IsTutBatch [[10, 11], [20, 21], [30, 31]] [1, 2, 3] 2 3 ids (tutCalls mid) sel b) ∧
        (1 ≤ tutCalls mid → g.call 3 sel = (.error .indexError, g)) :=
  C130_calls [[10, 11], [20, 21], [30, 31]] [1, 2, 3] 2 2 3 rfl (by omega) (by simp) [2, 0, 1] [0, 2, 1] (by decide)
    (by decide) _ (by
      intro c hc
      simp only [List.mem_cons, List.not_mem_nil, or_false] at hc
      rcases hc with rfl | rfl | rfl
      · trivial
      · trivial
      · show List.Perm _ _
        decide)

/-- Selections and quiet histories exist. -/
example : SelOk 2 3 (fun _ => [0, 1, 1]) ∧ TutQuiet 2 3 [.call (fun _ => [0, 1, 1]), .getItem 5 (fun _ => [])] := by
  have h : SelOk 2 3 (fun _ => [0, 1, 1]) := by intro q; simp
  exact ⟨h, h, trivial⟩

end

/-! ## C131: learning rates -/

theorem tutRuns_get (init rate : ℝ) (len epochs : ℕ) : ∀ (m it r : ℕ), r < m →
    (tutRuns init rate len epochs m it)[r]? = some (tutTraining init rate len epochs (it + r * (epochs * len))).1
  | 0, it, r, h => absurd h (by omega)
  | m + 1, it, 0, _ => by simp [tutRuns]
  | m + 1, it, r + 1, h => by
    rw [tutRuns]
    simp only [List.getElem?_cons_succ]
    rw [tutRuns_get init rate len epochs m _ r (by omega)]
    simp only [tutTraining]
    have e : it + epochs * len + r * (epochs * len) = it + (r + 1) * (epochs * len) := by ring
    rw [e]

/-- Specification: the learning rate of batch `i` of epoch `e` of the training of model
number `r`. -/
def RateAt (runs : List (List (List ℝ))) (r e i : ℕ) (x : ℝ) : Prop :=
  ∃ run ep, runs[r]? = some run ∧ run[e]? = some ep ∧ ep[i]? = some x

/-- **C131, the rates**: the training of model number `r` starts where the previous one
ended: batch `i` of epoch `e` uses `init * rate ^ (r * epochs + e + i / len)`. -/
theorem C131_rates (init rate : ℝ) (len epochs m r e i : ℕ) (hr : r < m) (he : e < epochs) (hi : i < len) :
    RateAt (tutRuns init rate len epochs m 0) r e i (init * rate ^ ((r * epochs + e : ℝ) + i / len)) := by
  have hlen : (len : ℝ) ≠ 0 := by
    have : 0 < len := by omega
    positivity
  refine ⟨_, (List.range len).map (fun i => smoothRate init rate len (0 + r * (epochs * len) + e * len + i)),
    tutRuns_get init rate len epochs m 0 r hr, ?_, ?_⟩
  · simp only [tutTraining]
    rw [List.getElem?_map, List.getElem?_range he]
    rfl
  · rw [List.getElem?_map, List.getElem?_range hi, Option.map_some]
    congr 1
    unfold smoothRate
    congr 2
    push_cast
    field_simp
    ring

/-- **C131, partial: the first model** is trained with the intended schedule, starting
from the initial rate and decaying by the factor `rate` per epoch. Missing: the models
trained afterwards. -/
theorem C131_first_model_partial (init rate : ℝ) (hr : 0 < rate) (len epochs m e i : ℕ) (hm : 0 < m) (he : e < epochs)
    (hi : i < len) : RateAt (tutRuns init rate len epochs m 0) 0 e i (init * rate ^ e * rate ^ ((i : ℝ) / len)) := by
  have h := C131_rates init rate len epochs m 0 e i hm he hi
  have e1 : init * rate ^ (((0 : ℕ) * epochs + e : ℝ) + i / len) = init * rate ^ e * rate ^ ((i : ℝ) / len) := by
    rw [Nat.cast_zero, zero_mul, zero_add, Real.rpow_add hr, Real.rpow_natCast, mul_assoc]
  rw [← e1]
  exact h

/-- **C131, factor between models**: every rate in the training of the next model is
`rate ^ epochs` times the one at the same place of the training before. -/
theorem C131_next_model (init rate : ℝ) (hr : 0 < rate) (len epochs m r e i : ℕ) (hm : r + 1 < m) (he : e < epochs)
    (hi : i < len) (x y : ℝ) (hx : RateAt (tutRuns init rate len epochs m 0) r e i x)
    (hy : RateAt (tutRuns init rate len epochs m 0) (r + 1) e i y) : y = rate ^ epochs * x := by
  have uniq : ∀ {runs : List (List (List ℝ))} {r e i : ℕ} {x y : ℝ}, RateAt runs r e i x → RateAt runs r e i y → x = y := by
    rintro runs r e i x y ⟨a, b, h1, h2, h3⟩ ⟨a', b', h1', h2', h3'⟩
    rw [h1, Option.some.injEq] at h1'
    subst h1'
    rw [h2, Option.some.injEq] at h2'
    subst h2'
    rw [h3, Option.some.injEq] at h3'
    exact h3'
  rw [uniq hx (C131_rates init rate len epochs m r e i (by omega) he hi),
    uniq hy (C131_rates init rate len epochs m (r + 1) e i hm he hi)]
  have e1 : (((r + 1 : ℕ) : ℝ) * epochs + e) + i / len = epochs + ((r * epochs + e : ℝ) + i / len) := by
    push_cast
    ring
  rw [e1, Real.rpow_add hr, Real.rpow_natCast]
  ring

/-- **C131, negative**: the models compared in the notebook are not trained with the same
learning rates (ten epochs, rates of the notebook, one batch per epoch). -/
theorem C131_same_rates_false : ¬ ∀ (init rate : ℝ) (len epochs m r r' e i : ℕ) (x y : ℝ), 0 < init → 0 < rate →
    r < m → r' < m → e < epochs → i < len → RateAt (tutRuns init rate len epochs m 0) r e i x →
    RateAt (tutRuns init rate len epochs m 0) r' e i y → x = y := by
  intro H
  have h1 := C131_rates (1 / 100) (95 / 100) 1 10 3 0 0 0 (by omega) (by omega) (by omega)
  have h2 := C131_rates (1 / 100) (95 / 100) 1 10 3 1 0 0 (by omega) (by omega) (by omega)
  have h3 := H (1 / 100) (95 / 100) 1 10 3 0 1 0 0 _ _ (by norm_num) (by norm_num) (by omega) (by omega) (by omega)
    (by omega) h1 h2
  have h4 := C131_next_model (1 / 100) (95 / 100) (by norm_num) 1 10 3 0 0 0 (by omega) (by omega) (by omega) _ _ h1 h2
  rw [← h3] at h4
  norm_num at h4

end PC
