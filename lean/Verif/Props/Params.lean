import Verif.Params
import Verif.Props.Rotate
import Verif.Props.Kernel
import Mathlib.LinearAlgebra.Matrix.NonsingularInverse

/-!
# C152: a layer restored from its stored numbers; C153: how many numbers a layer has
-/

set_option linter.unusedVariables false

namespace PC

section
variable {K : Type*} [Field K]

theorem getD_range_var (n : ℕ) (g : ℕ → K) {t : ℕ} (ht : t < n) : ((List.range n).map g).getD t 0 = g t := by
  rw [List.getD_eq_getElem?_getD, List.getElem?_map, List.getElem?_range ht]
  rfl

theorem unVar2_var2 (a b : ℕ) (w : ℕ → ℕ → K) {i j : ℕ} (hi : i < a) (hj : j < b) :
    unVar2 b (var2 a b w) i j = w i j := by
  unfold unVar2 var2
  have hlt : i * b + j < a * b := by
    calc i * b + j < i * b + b := by omega
      _ = (i + 1) * b := by ring
      _ ≤ a * b := Nat.mul_le_mul_right _ hi
  rw [getD_range_var _ _ hlt]
  have hb : 0 < b := by omega
  rw [show i * b + j = j + b * i by ring, Nat.add_mul_div_left _ _ hb, Nat.div_eq_of_lt hj, Nat.add_mul_mod_self_left,
    Nat.mod_eq_of_lt hj, Nat.zero_add]

theorem unVar3_var3 (a b c : ℕ) (w : ℕ → ℕ → ℕ → K) {i j k : ℕ} (hi : i < a) (hj : j < b) (hk : k < c) :
    unVar3 b c (var3 a b c w) i j k = w i j k := by
  unfold unVar3 var3
  have h1 : i * b + j < a * b := by
    calc i * b + j < i * b + b := by omega
      _ = (i + 1) * b := by ring
      _ ≤ a * b := Nat.mul_le_mul_right _ hi
  have h2 : (i * b + j) * c + k < a * b * c := by
    calc (i * b + j) * c + k < (i * b + j) * c + c := by omega
      _ = (i * b + j + 1) * c := by ring
      _ ≤ a * b * c := Nat.mul_le_mul_right _ h1
  rw [getD_range_var _ _ h2]
  have hb : 0 < b := by omega
  have hc : 0 < c := by omega
  have e1 : ((i * b + j) * c + k) / c = i * b + j := by
    rw [show (i * b + j) * c + k = k + c * (i * b + j) by ring, Nat.add_mul_div_left _ _ hc, Nat.div_eq_of_lt hk,
      Nat.zero_add]
  have e2 : ((i * b + j) * c + k) % c = k := by
    rw [show (i * b + j) * c + k = k + c * (i * b + j) by ring, Nat.add_mul_mod_self_left, Nat.mod_eq_of_lt hk]
  rw [e1, e2, show i * b + j = j + b * i by ring, Nat.add_mul_div_left _ _ hb, Nat.div_eq_of_lt hj,
    Nat.add_mul_mod_self_left, Nat.mod_eq_of_lt hj, Nat.zero_add]

theorem var2_length (a b : ℕ) (w : ℕ → ℕ → K) : (var2 a b w).length = a * b := by simp [var2]

theorem var3_length (a b c : ℕ) (w : ℕ → ℕ → ℕ → K) : (var3 a b c w).length = a * b * c := by simp [var3]

/-- Specification: two results of a layer are the same tensor with `cout` columns, or the same exception. -/
def SameOut (cout : ℕ) {ι : Type*} : Except Err (ι → ℕ → K) → Except Err (ι → ℕ → K) → Prop
  | .ok a, .ok b => ∀ i o, o < cout → a i o = b i o
  | .error e, .error e' => e = e'
  | _, _ => False

/-! ### MCConv -/

/-- The MLPs with numbers that agree inside the shapes have the same outputs. -/
inductive MlpAgree (mlps : ℕ) : ℕ → List (MlpLayer K) → List (MlpLayer K) → Prop
  | nil (prev) : MlpAgree mlps prev [] []
  | cons {prev l l' ls ls'} (hs : l'.size = l.size) (hw : ∀ m < mlps, ∀ i < prev, ∀ o < l.size, l'.w m i o = l.w m i o)
      (hb : ∀ m < mlps, ∀ o < l.size, l'.b m o = l.b m o) (hr : MlpAgree mlps l.size ls ls') :
      MlpAgree mlps prev (l :: ls) (l' :: ls')

/-- Number of outputs of the MLPs. -/
def mlpOut : ℕ → List (MlpLayer K) → ℕ
  | prev, [] => prev
  | _, l :: ls => mlpOut l.size ls

theorem mlpOut_getLast (prev : ℕ) (ls : List (MlpLayer K)) (h : ls ≠ []) :
    mlpOut prev ls = (ls.getLast?.map MlpLayer.size).getD 0 := by
  induction ls generalizing prev with
  | nil => exact absurd rfl h
  | cons l ls ih =>
    cases ls with
    | nil => rfl
    | cons l' ls => exact (ih l.size (by simp)).trans (by simp [List.getLast?_cons_cons])

theorem mlpEval_agree {mlps prev : ℕ} {ls ls' : List (MlpLayer K)} (h : MlpAgree mlps prev ls ls') (act : K → K)
    {m : ℕ} (hm : m < mlps) (x y : ℕ → K) (hxy : ∀ i < prev, x i = y i) :
    ∀ o < mlpOut prev ls, mlpEval act m prev ls' x o = mlpEval act m prev ls y o := by
  induction h generalizing x y with
  | nil => exact hxy
  | cons hs hw hb hr ih =>
    intro o ho
    simp only [mlpEval, hs]
    refine ih _ _ (fun q hq => ?_) o ho
    congr 1
    rw [hb m hm q hq]
    congr 1
    exact Finset.sum_congr rfl fun i hi => by rw [hxy i (Finset.mem_range.mp hi), hw m hm i (Finset.mem_range.mp hi) q hq]

theorem mlpLoad_save (mlps : ℕ) (ls ls' : List (MlpLayer K)) (h : ls'.map MlpLayer.size = ls.map MlpLayer.size)
    (prev : ℕ) (vs : List (List K)) :
    ∃ ls'', mlpLoad mlps prev ls' (mlpSave mlps prev ls ++ vs) = some (ls'', vs) ∧ MlpAgree mlps prev ls ls'' := by
  induction ls' generalizing ls prev with
  | nil =>
    have : ls = [] := by simpa using h.symm
    subst this
    exact ⟨[], rfl, .nil _⟩
  | cons l' ls' ih =>
    cases ls with
    | nil => simp at h
    | cons l ls =>
      simp only [List.map_cons, List.cons.injEq] at h
      obtain ⟨h1, h2⟩ := h
      obtain ⟨ls'', e, ha⟩ := ih ls h2 l.size
      refine ⟨{ l' with w := unVar3 prev l'.size (var3 mlps prev l.size l.w), b := unVar2 l'.size (var2 mlps l.size l.b) } ::
        ls'', ?_, ?_⟩
      · simp only [mlpSave, List.cons_append, mlpLoad]
        rw [if_pos ⟨by rw [var3_length, h1], by rw [var2_length, h1]⟩]
        rw [h1, e]
        rfl
      · refine .cons h1 ?_ ?_ ha
        · intro m hm i hi o ho
          dsimp only
          rw [h1]
          exact unVar3_var3 _ _ _ _ hm hi ho
        · intro m hm o ho
          dsimp only
          rw [h1]
          exact unVar2_var2 _ _ _ hm ho

/-- Specification: two `MCConv` layers were constructed with the same arguments. -/
def MCLayer.SameArgs (L L' : MCLayer K) : Prop :=
  L'.cin = L.cin ∧ L'.cout = L.cout ∧ L'.mlps = L.mlps ∧ L'.layers.map MlpLayer.size = L.layers.map MlpLayer.size

theorem hid_of_sizes {L L' : MCLayer K} (h : L'.layers.map MlpLayer.size = L.layers.map MlpLayer.size) : L'.hid = L.hid := by
  unfold MCLayer.hid
  have := congrArg List.getLast? h
  rw [List.getLast?_map, List.getLast?_map] at this
  rw [this]

theorem MlpAgree.sizes {mlps prev : ℕ} {ls ls' : List (MlpLayer K)} (h : MlpAgree mlps prev ls ls') :
    ls'.map MlpLayer.size = ls.map MlpLayer.size := by
  induction h with
  | nil => rfl
  | cons hs _ _ _ ih => simp [hs, ih]

theorem mcconv_agree (act : K → K) (D : ℕ) (L L' : MCLayer K) (ha : L.SameArgs L')
    (hl : MlpAgree L.mlps D L.layers L'.layers)
    (hf : ∀ m < L.mlps, ∀ x < L.hid * L.cin, ∀ o < L.cout / L.mlps, L'.final m x o = L.final m x o)
    (hm0 : L.mlps ≠ 0) (hd : L.cout % L.mlps = 0) (hne : L.layers ≠ []) {n m nf : ℕ} (pairs : List (Fin n × Fin m))
    (input : Fin pairs.length → ℕ → K) (pdf : Fin pairs.length → K) (f : Fin nf → ℕ → K) (c : Fin m) (o : ℕ)
    (ho : o < L.cout) : L'.conv act D pairs input pdf f c o = L.conv act D pairs input pdf f c o := by
  obtain ⟨h1, h2, h3, h4⟩ := ha
  have hh := hid_of_sizes h4
  unfold MCLayer.conv
  dsimp only
  rw [h1, h2, h3, hh]
  have hq : 0 < L.cout / L.mlps := by
    obtain ⟨q, hq⟩ := Nat.dvd_of_mod_eq_zero hd
    rw [hq] at ho ⊢
    rw [Nat.mul_div_cancel_left _ (Nat.pos_of_ne_zero hm0)]
    exact Nat.pos_of_ne_zero fun h0 => by simp [h0] at ho
  have hmi : o / (L.cout / L.mlps) < L.mlps := by
    rw [Nat.div_lt_iff_lt_mul hq, Nat.mul_div_cancel' (Nat.dvd_of_mod_eq_zero hd)]
    exact ho
  refine Finset.sum_congr rfl fun x hx => ?_
  have hx := Finset.mem_range.mp hx
  have hpos : 0 < L.hid := Nat.pos_of_ne_zero fun h0 => by simp [h0] at hx
  rw [hf _ hmi x (by rw [Nat.mul_comm]; exact hx) _ (Nat.mod_lt _ hq)]
  congr 1
  unfold basisProj
  congr 1
  funext j
  congr 1
  unfold MCLayer.basis
  rw [hh]
  dsimp only
  congr 1
  have e1 : (o / (L.cout / L.mlps) * L.hid + x % L.hid) / L.hid = o / (L.cout / L.mlps) := by
    rw [show o / (L.cout / L.mlps) * L.hid + x % L.hid = x % L.hid + L.hid * (o / (L.cout / L.mlps)) by ring,
      Nat.add_mul_div_left _ _ hpos, Nat.div_eq_of_lt (Nat.mod_lt _ hpos), Nat.zero_add]
  rw [e1]
  refine mlpEval_agree hl act hmi _ _ (fun _ _ => rfl) _ ?_
  rw [mlpOut_getLast D L.layers hne]
  exact Nat.mod_lt _ hpos

/-- Restoring into a layer constructed with the same arguments succeeds. -/
theorem mc_load (D : ℕ) (L L' : MCLayer K) (ha : L.SameArgs L') :
    ∃ L'', L'.load D (L.save D) = some L'' ∧ L.SameArgs L'' ∧ MlpAgree L.mlps D L.layers L''.layers ∧
      ∀ m < L.mlps, ∀ x < L.hid * L.cin, ∀ o < L.cout / L.mlps, L''.final m x o = L.final m x o := by
  obtain ⟨h1, h2, h3, h4⟩ := ha
  have hh := hid_of_sizes h4
  obtain ⟨ls, e, hls⟩ := mlpLoad_save L.mlps L.layers L'.layers h4 D [var3 L.mlps (L.hid * L.cin) (L.cout / L.mlps) L.final]
  refine ⟨{ L' with layers := ls, final := (unVar3 (L'.hid * L'.cin) (L'.cout / L'.mlps)
      (var3 L.mlps (L.hid * L.cin) (L.cout / L.mlps) L.final)) }, ?_, ⟨h1, h2, h3, hls.sizes⟩, hls, ?_⟩
  · unfold MCLayer.load MCLayer.save
    rw [h3, e]
    dsimp only
    rw [if_pos (by rw [var3_length, h1, h2, hh])]
  · intro m hm x hx o ho
    dsimp only
    rw [h1, h2, h3, hh]
    exact unVar3_var3 _ _ _ _ hm hx ho

end

section
variable {K : Type*} [Field K] [LinearOrder K] [FloorRing K] {k : ℕ}

/-- **C152, MCConv.** The numbers stored for a layer determine its results: read into any layer constructed with
the same arguments, whatever its initial values, they give a layer with the same results on all clouds, features
and devices. -/
theorem C152_mcconv (L L' : MCLayer K) (ha : L.SameArgs L') (hm0 : L.mlps ≠ 0) (hd : L.cout % L.mlps = 0)
    (hne : L.layers ≠ []) :
    ∃ L'', L'.load (k + 2) (L.save (k + 2)) = some L'' ∧
      ∀ (ker act : K → K) (dev : Device) (eps : K) (cin cout : Cloud (Fin (k + 2) → K)) (radius bw : K)
        (f : Fin cin.n → ℕ → K), SameOut L.cout (L''.call ker act dev eps cin cout radius bw f)
          (L.call ker act dev eps cin cout radius bw f) := by
  obtain ⟨L'', e, h1, h2, h3⟩ := mc_load (k + 2) L L' ha
  refine ⟨L'', e, fun ker act dev eps cin cout radius bw f => ?_⟩
  unfold MCLayer.call
  cases layerNbh dev eps cin cout radius with
  | error e => exact rfl
  | ok h =>
    dsimp only
    cases (h.runGet ker dev none ⟨fun _ => bw, .constant, false⟩).1 with
    | error e => exact rfl
    | ok pdf =>
      intro c o ho
      dsimp only
      split
      · exact mcconv_agree act (k + 2) L L'' h1 h2 h3 hm0 hd hne _ _ _ _ _ o ho
      · rfl

/-- **C152, PointConv.** -/
theorem C152_pointconv (cout' : ℕ) (L L' : PCLayer K) (hc : L'.cin = L.cin) (hh : L'.hid = L.hid) :
    ∃ L'', L'.load (k + 2) cout' (L.save (k + 2) cout') = some L'' ∧
      ∀ (ker act : K → K) (dev : Device) (eps : K) (cin cout : Cloud (Fin (k + 2) → K)) (radius bw : K)
        (f : Fin cin.n → ℕ → K), SameOut cout' (L''.call ker act dev eps cin cout radius bw f)
          (L.call ker act dev eps cin cout radius bw f) := by
  obtain ⟨c', h', ax', bi', we', a', b', d', e'⟩ := L'
  dsimp only at hc hh
  subst hc hh
  refine ⟨_, by
    unfold PCLayer.load PCLayer.save
    dsimp only
    rw [if_pos ⟨var2_length _ _ _, var2_length _ _ _, var2_length _ _ _, var2_length _ _ _, var2_length _ _ _,
      var2_length _ _ _, rfl⟩], fun ker act dev eps cin cout radius bw f => ?_⟩
  unfold PCLayer.call
  cases layerNbh dev eps cin cout radius with
  | error e => exact rfl
  | ok h =>
    dsimp only
    cases (h.runGet ker dev none ⟨fun _ => bw, .constant, false⟩).1 with
    | error e => exact rfl
    | ok pdf =>
      intro c o ho
      dsimp only
      split
      · unfold PCLayer.callOn PCLayer.conv
        dsimp only
        refine Finset.sum_congr rfl fun x hx => ?_
        have hx := Finset.mem_range.mp hx
        have hpos : 0 < L.hid := Nat.pos_of_ne_zero fun h0 => by simp [h0] at hx
        rw [unVar2_var2 _ _ _ (by rw [Nat.mul_comm]; exact hx) ho]
        congr 1
        unfold basisProj
        congr 1
        funext j
        congr 1
        have hb := Nat.mod_lt x hpos
        dsimp only
        congr 1
        · rw [unVar2_var2 1 _ _ one_pos hb]
          congr 2
          exact Finset.sum_congr rfl fun i hi => by rw [unVar2_var2 _ _ _ (Finset.mem_range.mp hi) hb]
      · rfl

end

/-! ### KPConv -/

section
variable {D : ℕ}

/-- Specification: two `KPConv` layers with the same arguments and kernel points. -/
def KPLayer.SameArgs (L L' : KPLayer D) : Prop :=
  L'.cin = L.cin ∧ L'.nk = L.nk ∧ L'.nkp = L.nkp ∧ L'.interp = L.interp ∧ L'.offs.isSome = L.offs.isSome

/-- Specification: two results of a `KPConv` layer are the same tensor with `cout` columns, or the same exception. -/
def SameRows (cout : ℕ) : Except Err (ℕ × (ℕ → ℕ → ℝ)) → Except Err (ℕ × (ℕ → ℕ → ℝ)) → Prop
  | .ok a, .ok b => a.1 = b.1 ∧ ∀ i o, o < cout → a.2 i o = b.2 i o
  | .error e, .error e' => e = e'
  | _, _ => False

theorem kpProject_congr {K : Type*} [Field K] {n m nf : ℕ} (cin nk nkp : ℕ) (pairs : List (Fin n × Fin m))
    (w w' : Fin pairs.length → ℕ → K) (f : Fin nf → ℕ → K) (h : ∀ j b, b < nkp → w' j b = w j b) :
    kpProject cin nk nkp pairs w' f = kpProject cin nk nkp pairs w f := by
  have : (fun j => padRow nkp (w' j)) = fun j => padRow nkp (w j) := by
    funext j b
    unfold padRow
    split
    · exact h j b ‹_›
    · rfl
  unfold kpProject
  rw [this]

/-- What a restored layer has in common with the saved one. -/
structure KPLayer.Agree (cout : ℕ) (L L' : KPLayer D) : Prop where
  cin : L'.cin = L.cin
  nk : L'.nk = L.nk
  nkp : L'.nkp = L.nkp
  interp : L'.interp = L.interp
  weights : ∀ x < L.nk * L.cin, ∀ o < cout, L'.weights x o = L.weights x o
  none : L.offs = none → L'.offs = none
  some : ∀ wo, L.offs = some wo → ∃ wo', L'.offs = some wo' ∧
    ∀ x < L.nk * L.cin, ∀ y < L.nk * D, wo' x y = wo x y

theorem kpconv_agree {cout : ℕ} {L L' : KPLayer D} (h : L.Agree cout L') (hk : ∀ b < L.nkp, L'.kp b = L.kp b)
    (sigma : ℝ) {n m nf : ℕ} (pairs : List (Fin n × Fin m)) (input : Fin pairs.length → Fin D → ℝ) (f : Fin nf → ℕ → ℝ) :
    SameRows cout (L'.conv sigma pairs input f) (L.conv sigma pairs input f) := by
  have hoff : ∀ (off off' : Fin pairs.length → ℕ → Fin D → ℝ), (∀ j b, b < L.nkp → off' j b = off j b) →
      kpProject L'.cin L'.nk L'.nkp pairs (fun j => L'.weightRow sigma (input j) (off' j)) f =
        kpProject L.cin L.nk L.nkp pairs (fun j => L.weightRow sigma (input j) (off j)) f := by
    intro off off' ho
    rw [h.cin, h.nk, h.nkp]
    refine kpProject_congr _ _ _ _ _ _ _ fun j b hb => ?_
    unfold KPLayer.weightRow
    rw [h.interp, hk b hb, ho j b hb]
  have hend : ∀ (off off' : Fin pairs.length → ℕ → Fin D → ℝ), (∀ j b, b < L.nkp → off' j b = off j b) →
      L'.offsets sigma pairs input f = .ok off' → L.offsets sigma pairs input f = .ok off →
      SameRows cout (L'.conv sigma pairs input f) (L.conv sigma pairs input f) := by
    intro off off' ho e1 e2
    unfold KPLayer.conv
    rw [e1, e2]
    dsimp only
    rw [hoff off off' ho]
    cases kpProject L.cin L.nk L.nkp pairs (fun j => L.weightRow sigma (input j) (off j)) f with
    | error e => exact rfl
    | ok r =>
      refine ⟨rfl, fun i o hlt => ?_⟩
      dsimp only
      rw [h.cin, h.nk]
      exact Finset.sum_congr rfl fun x hx => by
        rw [h.weights x (by rw [Nat.mul_comm]; exact Finset.mem_range.mp hx) o hlt]
  cases ho : L.offs with
  | none =>
    exact hend _ _ (fun _ _ _ => rfl) (by unfold KPLayer.offsets; rw [h.none ho]) (by unfold KPLayer.offsets; rw [ho])
  | some wo =>
    obtain ⟨wo', ho', hwo⟩ := h.some wo ho
    by_cases hn : L.nk = L.nkp
    · have hz := hoff (fun _ _ _ => 0) (fun _ _ _ => 0) (fun _ _ _ => rfl)
      cases hp : kpProject L.cin L.nk L.nkp pairs (fun j => L.weightRow sigma (input j) (fun _ _ => 0)) f with
      | error e =>
        rw [hp] at hz
        unfold KPLayer.conv KPLayer.offsets
        rw [ho, ho']
        dsimp only
        rw [if_neg (by rw [h.nk, h.nkp, hn]; simp), if_neg (by rw [hn]; simp), hz, hp]
        exact rfl
      | ok r =>
        rw [hp] at hz
        refine hend (fun j b d => ∑ x ∈ Finset.range (L.cin * L.nk), r.2 (pairs.get j).2.val x * wo x (b * D + d.val))
          (fun j b d => ∑ x ∈ Finset.range (L.cin * L.nk), r.2 (pairs.get j).2.val x * wo' x (b * D + d.val)) ?_ ?_ ?_
        · intro j b hb
          funext d
          refine Finset.sum_congr rfl fun x hx => ?_
          rw [hwo x (by rw [Nat.mul_comm]; exact Finset.mem_range.mp hx)]
          have := d.isLt
          calc b * D + d.val < b * D + D := by omega
            _ = (b + 1) * D := by ring
            _ ≤ L.nk * D := Nat.mul_le_mul_right _ (by omega)
        · unfold KPLayer.offsets
          rw [ho']
          dsimp only
          rw [if_neg (by rw [h.nk, h.nkp, hn]; simp), hz, h.cin, h.nk]
        · unfold KPLayer.offsets
          rw [ho]
          dsimp only
          rw [if_neg (by rw [hn]; simp), hp]
    · unfold KPLayer.conv KPLayer.offsets
      rw [ho, ho']
      dsimp only
      rw [if_pos (by rw [h.nk, h.nkp]; exact hn), if_pos hn]
      exact rfl

/-- Restoring into a layer constructed with the same arguments succeeds and leaves the kernel points of that layer. -/
theorem kp_load (cout : ℕ) (L L' : KPLayer D) (ha : L.SameArgs L') :
    ∃ L'', L'.load cout (L.save cout) = some L'' ∧ L.Agree cout L'' ∧ L''.kp = L'.kp := by
  obtain ⟨c', nk', nkp', kp', in', we', of'⟩ := L'
  obtain ⟨h1, h2, h3, h4, h5⟩ := ha
  dsimp only at h1 h2 h3 h4 h5
  subst h1 h2 h3 h4
  unfold KPLayer.load KPLayer.save
  cases ho : L.offs with
  | none =>
    rw [ho] at h5
    obtain rfl : of' = none := by simpa using h5
    refine ⟨{ L with kp := kp', weights := unVar2 cout (var2 (L.nk * L.cin) cout L.weights) }, ?_, ?_, rfl⟩
    · simp only [List.nil_append]
      rw [if_pos (var2_length _ _ _), ho]
    · exact ⟨rfl, rfl, rfl, rfl, fun x hx o h => unVar2_var2 _ _ _ hx h, fun h => h, fun wo h => absurd (ho.symm.trans h) (by simp)⟩
  | some wo =>
    rw [ho] at h5
    obtain ⟨wo', rfl⟩ := Option.isSome_iff_exists.mp h5
    refine ⟨{ L with kp := kp', weights := unVar2 cout (var2 (L.nk * L.cin) cout L.weights),
                     offs := some (unVar2 (L.nk * D) (var2 (L.nk * L.cin) (L.nk * D) wo)) }, ?_, ?_, rfl⟩
    · simp only [List.cons_append, List.nil_append]
      rw [if_pos ⟨var2_length _ _ _, var2_length _ _ _⟩]
    · refine ⟨rfl, rfl, rfl, rfl, fun x hx o h => unVar2_var2 _ _ _ hx h, fun h => absurd (ho.symm.trans h) (by simp), ?_⟩
      intro w hw
      obtain rfl : wo = w := by rw [ho] at hw; exact Option.some.inj hw
      exact ⟨_, rfl, fun x hx y hy => unVar2_var2 _ _ _ hx hy⟩

end

section
variable {k : ℕ}

theorem kpcall_agree {cout' : ℕ} {L L' : KPLayer (k + 2)} (h : L.Agree cout' L') (hk : ∀ b < L.nkp, L'.kp b = L.kp b)
    (dev : Device) (eps : ℝ) (cin cout : Cloud (Fin (k + 2) → ℝ)) (radius : ℝ) (influence : Option ℝ)
    (f : Fin cin.n → ℕ → ℝ) :
    SameRows cout' (L'.call dev eps cin cout radius influence f) (L.call dev eps cin cout radius influence f) := by
  unfold KPLayer.call
  cases layerNbh dev eps cin cout radius with
  | error e => exact rfl
  | ok nb => exact kpconv_agree h hk _ _ _ _

/-- **C152, KPConv, in part.** With `custom_kernel_points`, for the rigid and the deformable variant, the stored
numbers determine the results.  Missing: the built-in kernel points, see `C152_kpconv_false`. -/
theorem C152_kpconv_partial (cin' cout' nk : ℕ) (interp : Interp) (pts : List (Fin (k + 2) → ℝ)) (w w' : ℕ → ℕ → ℝ)
    (offs offs' : Option (ℕ → ℕ → ℝ)) (ho : offs'.isSome = offs.isSome) :
    ∃ L'', (KPLayer.custom cin' nk interp pts w' offs').load cout' ((KPLayer.custom cin' nk interp pts w offs).save cout') =
        some L'' ∧
      ∀ (dev : Device) (eps : ℝ) (cin cout : Cloud (Fin (k + 2) → ℝ)) (radius : ℝ) (influence : Option ℝ)
        (f : Fin cin.n → ℕ → ℝ), SameRows cout' (L''.call dev eps cin cout radius influence f)
          ((KPLayer.custom cin' nk interp pts w offs).call dev eps cin cout radius influence f) := by
  obtain ⟨L'', e, ha, hk⟩ := kp_load cout' (KPLayer.custom cin' nk interp pts w offs)
    (KPLayer.custom cin' nk interp pts w' offs') ⟨rfl, rfl, rfl, rfl, ho⟩
  exact ⟨L'', e, fun dev eps cin cout radius influence f =>
    kpcall_agree ha (fun b _ => by rw [hk]; rfl) dev eps cin cout radius influence f⟩

theorem basePoints_length {n : ℕ} {l : List (Fin 3 → ℝ)} (h : basePoints n = .ok l) : l.length = n ∧ 0 < n := by
  unfold basePoints at h
  split at h
  · cases h; subst n; exact ⟨rfl, by norm_num⟩
  split at h
  · cases h; subst n; exact ⟨rfl, by norm_num⟩
  split at h
  · cases h
  split at h
  · cases h; subst n; exact ⟨rfl, by norm_num⟩
  split at h
  · cases h; subst n; exact ⟨rfl, by norm_num⟩
  · cases h

theorem rotMat_orth (a : Fin 3 → ℝ) : rotMat a * (rotMat a).transpose = 1 := by
  have hx : ∀ t, rotX t * (rotX t).transpose = 1 := by
    intro t
    have := Real.sin_sq_add_cos_sq t
    ext i j
    fin_cases i <;> fin_cases j <;> simp [rotX, Matrix.mul_apply, Fin.sum_univ_three] <;> nlinarith
  have hy : ∀ t, rotY t * (rotY t).transpose = 1 := by
    intro t
    have := Real.sin_sq_add_cos_sq t
    ext i j
    fin_cases i <;> fin_cases j <;> simp [rotY, Matrix.mul_apply, Fin.sum_univ_three] <;> nlinarith
  have hz : ∀ t, rotZ t * (rotZ t).transpose = 1 := by
    intro t
    have := Real.sin_sq_add_cos_sq t
    ext i j
    fin_cases i <;> fin_cases j <;> simp [rotZ, Matrix.mul_apply, Fin.sum_univ_three] <;> nlinarith
  unfold rotMat
  rw [Matrix.transpose_mul, Matrix.transpose_mul]
  calc rotX (a 0) * rotY (a 1) * rotZ (a 2) * ((rotZ (a 2)).transpose * ((rotY (a 1)).transpose * (rotX (a 0)).transpose))
      = rotX (a 0) * (rotY (a 1) * (rotZ (a 2) * (rotZ (a 2)).transpose) * (rotY (a 1)).transpose) * (rotX (a 0)).transpose := by
        simp only [Matrix.mul_assoc]
    _ = 1 := by rw [hz, Matrix.mul_one, hy, Matrix.mul_one, hx]

/-- The rotation between the kernel points of two constructions. -/
noncomputable def rotBetween (a a' : Fin 3 → ℝ) : Fin 3 → Fin 3 → ℝ := (rotMat a').transpose * rotMat a

theorem rotBetween_orthonormal (a a' : Fin 3 → ℝ) : Orthonormal' (rotBetween a a') := by
  have h : ((rotMat a').transpose * rotMat a).transpose * ((rotMat a').transpose * rotMat a) = 1 := by
    rw [Matrix.transpose_mul, Matrix.transpose_transpose]
    calc (rotMat a).transpose * rotMat a' * ((rotMat a').transpose * rotMat a)
        = (rotMat a).transpose * (rotMat a' * (rotMat a').transpose) * rotMat a := by simp only [Matrix.mul_assoc]
      _ = 1 := by rw [rotMat_orth, Matrix.mul_one, mul_eq_one_comm.mp (rotMat_orth a)]
  intro d e
  have := congrFun (congrFun h d) e
  rw [Matrix.mul_apply, Matrix.one_apply] at this
  exact this

theorem rotBetween_turn (a a' : Fin 3 → ℝ) (p : Fin 3 → ℝ) : turn (rotBetween a a') (rotPt a p) = rotPt a' p := by
  have e : turn (rotBetween a a') (rotPt a p) = Matrix.mulVec (rotBetween a a') (rotPt a p) := rfl
  rw [e]
  unfold rotBetween rotPt
  rw [← Matrix.mulVec_transpose, Matrix.mulVec_mulVec, Matrix.mul_assoc, rotMat_orth, Matrix.mul_one, Matrix.mulVec_transpose]

/-- **C152, KPConv with built-in kernel points.** What a restored rigid layer computes: there is a rotation, fixed by
the random angles of the two constructions, such that the restored layer has on every turned cloud the results of
the saved layer on the cloud itself. -/
theorem C152_kpconv_turned (cin' cout' nk : ℕ) (interp : Interp) (a a' : Fin 3 → ℝ) (w w' : ℕ → ℕ → ℝ) (L L' : KPLayer 3)
    (h : KPLayer.builtin cin' nk interp a w none = .ok L) (h' : KPLayer.builtin cin' nk interp a' w' none = .ok L')
    (hcin : 0 < cin') :
    ∃ L'', L'.load cout' (L.save cout') = some L'' ∧
      ∃ R : Fin 3 → Fin 3 → ℝ, Orthonormal' R ∧
        ∀ (dev dev' : Device) (eps : ℝ) (cin cout : Cloud (Fin (1 + 2) → ℝ)) (radius : ℝ) (influence : Option ℝ)
          (f : Fin cin.n → ℕ → ℝ) (out out' : ℕ × (ℕ → ℕ → ℝ)), LayerOk cin cout radius eps →
          L.call (k := 1) dev eps cin cout radius influence f = .ok out →
          L''.call (k := 1) dev' eps (cin.turn R) (cout.turn R) radius influence f = .ok out' →
          out'.1 = out.1 ∧ ∀ (c : Fin cout.n) (o : ℕ), o < cout' → out'.2 c.val o = out.2 c.val o := by
  unfold KPLayer.builtin sphericalKernelPoints at h h'
  cases hb : basePoints nk with
  | error e => rw [hb] at h; cases h
  | ok l =>
    rw [hb] at h h'
    dsimp only at h h'
    cases h
    cases h'
    obtain ⟨hl, hnk⟩ := basePoints_length hb
    obtain ⟨L'', e, ha, hk⟩ := kp_load cout' (KPLayer.custom cin' nk interp (l.map (rotPt a)) w none)
      (KPLayer.custom cin' nk interp (l.map (rotPt a')) w' none) ⟨rfl, rfl, by simp [KPLayer.custom], rfl, rfl⟩
    refine ⟨L'', e, rotBetween a a', rotBetween_orthonormal a a', ?_⟩
    intro dev dev' eps cin cout radius influence f out out' hok h1 h2
    have hAgree : KPLayer.Agree cout' ((KPLayer.custom cin' nk interp (l.map (rotPt a)) w none).turn (rotBetween a a')) L'' :=
      ⟨ha.cin, ha.nk, ha.nkp, ha.interp, ha.weights, fun _ => ha.none rfl, fun wo hwo => by cases hwo⟩
    have hkp : ∀ b < ((KPLayer.custom cin' nk interp (l.map (rotPt a)) w none).turn (rotBetween a a')).nkp,
        L''.kp b = ((KPLayer.custom cin' nk interp (l.map (rotPt a)) w none).turn (rotBetween a a')).kp b := by
      intro b hlt
      have hlt : b < l.length := by simpa [KPLayer.turn, KPLayer.custom] using hlt
      rw [hk]
      have e1 : ∀ ang : Fin 3 → ℝ, (l.map (rotPt ang)).getD b 0 = rotPt ang l[b] := by
        intro ang
        simp [List.getD_eq_getElem?_getD, List.getElem?_eq_getElem hlt]
      funext d
      simp only [KPLayer.custom, KPLayer.turn, e1]
      rw [← rotBetween_turn a a']
      unfold turn
      rw [Finset.sum_mul]
      exact Finset.sum_congr rfl fun i _ => by ring
    have hs := kpcall_agree (k := 1) hAgree hkp dev' eps (cin.turn (rotBetween a a')) (cout.turn (rotBetween a a')) radius influence f
    rw [h2] at hs
    cases h3 : ((KPLayer.custom cin' nk interp (l.map (rotPt a)) w none).turn (rotBetween a a')).call (k := 1) dev' eps
        (cin.turn (rotBetween a a')) (cout.turn (rotBetween a a')) radius influence f with
    | error e => rw [h3] at hs; exact hs.elim
    | ok out3 =>
      rw [h3] at hs
      obtain ⟨b1, b2⟩ := C119_kpconv (k := 1) dev dev' eps _ cin cout radius hok influence hcin hnk
        (by simpa [KPLayer.custom] using hl) _ (rotBetween_orthonormal a a') f out out3 h1 h3
      exact ⟨hs.1.trans b1, fun c o ho => (hs.2 _ o ho).trans (b2 c o)⟩

end

/-! ### A restored layer with other results -/

/-- A layer with 7 kernel points, one feature in and out, that only looks at the second kernel point. -/
noncomputable abbrev exRestW : ℕ → ℕ → ℝ := fun x _ => if x = 1 then 1 else 0

/-- Its kernel points before the rotation. -/
noncomputable abbrev exRestPts : List (Fin 3 → ℝ) :=
  [![0, 0, 0], ![1, 0, 0], ![-1, 0, 0], ![0, 1, 0], ![0, -1, 0], ![0, 0, 1], ![0, 0, -1]]

/-- One point at the position of the second kernel point. -/
noncomputable abbrev exRestIn : Cloud (Fin (1 + 2) → ℝ) := ⟨1, fun _ => ![3 / 4, 0, 0], fun _ => 0, 1⟩

/-- One centre at the origin. -/
abbrev exRestOut : Cloud (Fin (1 + 2) → ℝ) := ⟨1, fun _ => ![0, 0, 0], fun _ => 0, 1⟩

theorem exRest_ok : LayerOk exRestIn exRestOut 1 (1 / 100) := ⟨fun _ => Nat.zero_lt_one, one_pos, by norm_num⟩

theorem exRest_nbrs : nbrs exRestIn exRestOut 1 (0 : Fin 1) = {(0 : Fin 1)} := by
  ext p
  have : p = (0 : Fin 1) := Subsingleton.elim (α := Fin 1) _ _
  subst this
  simp [nbrs, normLt, Fin.sum_univ_three]
  norm_num

/-- The layer constructed with the angles `a`. -/
noncomputable def exRestL (a : Fin 3 → ℝ) (w : ℕ → ℕ → ℝ) : KPLayer 3 :=
  KPLayer.custom 1 7 .linear (exRestPts.map (rotPt a)) w none

theorem exRestL_kp (a : Fin 3 → ℝ) (w : ℕ → ℕ → ℝ) : (exRestL a w).kp 1 = fun d => rotPt a ![1, 0, 0] d * 0.75 := by
  funext d
  simp only [exRestL, KPLayer.custom, exRestPts, List.map_cons, List.getD_cons_succ, List.getD_cons_zero]

theorem exRestL_nkp (a : Fin 3 → ℝ) (w : ℕ → ℕ → ℝ) : (exRestL a w).nkp = 7 := by
  simp [exRestL, KPLayer.custom]

theorem exRestL_same (a a' : Fin 3 → ℝ) (w w' : ℕ → ℕ → ℝ) : (exRestL a w).SameArgs (exRestL a' w') :=
  ⟨rfl, rfl, by rw [exRestL_nkp, exRestL_nkp], rfl, rfl⟩

theorem exRest_builtin (a : Fin 3 → ℝ) (w : ℕ → ℕ → ℝ) : KPLayer.builtin 1 7 .linear a w none = .ok (exRestL a w) := by
  unfold KPLayer.builtin sphericalKernelPoints basePoints exRestL
  rw [if_neg (by norm_num), if_pos rfl]

/-- The value of the layer on that point, for any rotation. -/
theorem exRest_value (a : Fin 3 → ℝ) (w : ℕ → ℕ → ℝ) (hw : ∀ x < 7, w x 0 = exRestW x 0) (L : KPLayer 3)
    (hc : L.cin = 1) (hn : L.nk = 7) (hp : L.nkp = 7) (hi : L.interp = .linear) (ho : L.offs = none)
    (hww : ∀ x < 7, L.weights x 0 = exRestW x 0) (hk : L.kp 1 = fun d => rotPt a ![1, 0, 0] d * 0.75) :
    ∃ out : ℕ × (ℕ → ℕ → ℝ), L.call (k := 1) .gpu (1 / 100) exRestIn exRestOut 1 none (fun _ _ => 1) = .ok out ∧
      out.2 0 0 = max (1 - norm2 (fun d => (![3 / 4, 0, 0] : Fin 3 → ℝ) d - rotPt a ![1, 0, 0] d * 0.75)) 0 := by
  obtain ⟨h, hh⟩ := layerNbh_gpu (k := 1) (1 / 100) exRestIn exRestOut 1 exRest_ok (by norm_num) (fun _ => Nat.zero_lt_one)
  obtain ⟨out, e1, e2⟩ := C41_kpconv_formula (k := 1) .gpu (1 / 100) L exRestIn exRestOut 1 exRest_ok none (by omega)
    (by omega) (by omega) (fun _ _ => 1) h hh
  refine ⟨_, e1, (e2 (0 : Fin 1) 0).trans ?_⟩
  unfold kpSpec
  rw [exRest_nbrs, Finset.sum_singleton, hc, hn, Finset.sum_range_one, ho, hi]
  rw [Finset.sum_eq_single 1]
  · rw [hww _ (by norm_num), hk]
    simp only [Interp.weight, kpSigma, exRestW]
    simp only [if_true, div_one, one_mul, mul_one, add_zero]
    congr 3
    funext d
    fin_cases d <;> simp
  · intro b hb hb1
    rw [hww _ (by have := Finset.mem_range.mp hb; omega)]
    simp [hb1]
  · intro h
    exact absurd (Finset.mem_range.mpr (by norm_num)) h

/-- **C152 fails for `KPConv` with the built-in kernel points**: the kernel points are turned by random angles when
the layer is constructed and are not stored, so a layer restored from a checkpoint has other results. -/
theorem C152_kpconv_false : ¬ ∀ (cin' cout' nk : ℕ) (interp : Interp) (a a' : Fin 3 → ℝ) (w w' : ℕ → ℕ → ℝ)
    (L L' L'' : KPLayer 3), KPLayer.builtin cin' nk interp a w none = .ok L →
    KPLayer.builtin cin' nk interp a' w' none = .ok L' → L'.load cout' (L.save cout') = some L'' →
    ∀ (dev : Device) (eps : ℝ) (cin cout : Cloud (Fin (1 + 2) → ℝ)) (radius : ℝ) (influence : Option ℝ)
      (f : Fin cin.n → ℕ → ℝ), SameRows cout' (L''.call (k := 1) dev eps cin cout radius influence f)
        (L.call (k := 1) dev eps cin cout radius influence f) := by
  intro H
  obtain ⟨L'', e, ha, hk⟩ := kp_load 1 (exRestL 0 exRestW)
    (exRestL ![0, 0, Real.pi] exRestW) (exRestL_same _ _ _ _)
  have h := H 1 1 7 .linear 0 ![0, 0, Real.pi] exRestW exRestW _ _ L'' (exRest_builtin _ _) (exRest_builtin _ _) e
    .gpu (1 / 100) exRestIn exRestOut 1 none (fun _ _ => 1)
  obtain ⟨o1, c1, v1⟩ := exRest_value 0 exRestW (fun _ _ => rfl)
    (exRestL 0 exRestW) rfl rfl (exRestL_nkp _ _) rfl rfl (fun _ _ => rfl) (exRestL_kp _ _)
  obtain ⟨o2, c2, v2⟩ := exRest_value ![0, 0, Real.pi] exRestW (fun _ _ => rfl) L'' ha.cin ha.nk (ha.nkp.trans (exRestL_nkp _ _)) ha.interp
    (ha.none rfl) (fun x hx => ha.weights x (by simpa [exRestL, KPLayer.custom] using hx) 0 one_pos) (by rw [hk]; exact exRestL_kp _ _)
  rw [c1, c2] at h
  have h0 := h.2 0 0 one_pos
  rw [v1, v2] at h0
  have e1 : rotPt 0 ![1, 0, 0] = ![1, 0, 0] := by
    rw [rotPt_eq, vecMul_rotX, vecMul_rotY, vecMul_rotZ]
    ext d
    fin_cases d <;> simp
  have e2 : rotPt ![0, 0, Real.pi] ![1, 0, 0] = ![-1, 0, 0] := by
    rw [rotPt_eq, vecMul_rotX, vecMul_rotY, vecMul_rotZ]
    ext d
    fin_cases d <;> simp
  rw [e1, e2] at h0
  have n1 : norm2 (fun d => (![3 / 4, 0, 0] : Fin 3 → ℝ) d - (![1, 0, 0] : Fin 3 → ℝ) d * 0.75) = 0 := by
    unfold norm2
    rw [Fin.sum_univ_three]
    simp
    norm_num
  have n2 : norm2 (fun d => (![3 / 4, 0, 0] : Fin 3 → ℝ) d - (![-1, 0, 0] : Fin 3 → ℝ) d * 0.75) = 3 / 2 := by
    unfold norm2
    rw [Fin.sum_univ_three]
    rw [show (((![3 / 4, 0, 0] : Fin 3 → ℝ) 0 - (![-1, 0, 0] : Fin 3 → ℝ) 0 * 0.75) ^ 2 +
      ((![3 / 4, 0, 0] : Fin 3 → ℝ) 1 - (![-1, 0, 0] : Fin 3 → ℝ) 1 * 0.75) ^ 2 +
      ((![3 / 4, 0, 0] : Fin 3 → ℝ) 2 - (![-1, 0, 0] : Fin 3 → ℝ) 2 * 0.75) ^ 2) = (3 / 2) ^ 2 by simp; norm_num]
    exact Real.sqrt_sq (by norm_num)
  rw [n1, n2] at h0
  norm_num at h0

/-! ## C153 -/

section
variable {K : Type*} [Field K]

/-- Specification: the number of parameters of MLPs with the given sizes. -/
def mlpCount : ℕ → List ℕ → ℕ
  | _, [] => 0
  | prev, s :: ss => prev * s + s + mlpCount s ss

theorem mlpSave_count (mlps prev : ℕ) (ls : List (MlpLayer K)) :
    numParams (mlpSave mlps prev ls) = mlps * mlpCount prev (ls.map MlpLayer.size) := by
  induction ls generalizing prev with
  | nil => rfl
  | cons l ls ih =>
    have := ih l.size
    unfold numParams at this ⊢
    simp only [mlpSave, List.map_cons, List.sum_cons, this, var3_length, var2_length, mlpCount]
    ring

/-- **C153, MCConv.** For `cout` a multiple of the number of MLPs, the layer has that many parameters; the weights that are
applied to the features do not depend on the number of MLPs. -/
theorem C153_mcconv (D : ℕ) (L : MCLayer K) (hd : L.cout % L.mlps = 0) :
    numParams (L.save D) = L.mlps * mlpCount D (L.layers.map MlpLayer.size) + L.hid * L.cin * L.cout := by
  have h := mlpSave_count L.mlps D L.layers
  unfold numParams at h ⊢
  unfold MCLayer.save
  rw [List.map_append, List.sum_append, h]
  simp only [List.map_cons, List.map_nil, List.sum_cons, List.sum_nil, Nat.add_zero, var3_length]
  congr 1
  rw [Nat.mul_comm L.mlps, Nat.mul_assoc, Nat.mul_div_cancel' (Nat.dvd_of_mod_eq_zero hd)]

/-- One hidden layer of size `h`, as in the constructor's default. -/
theorem C153_mcconv_one (D : ℕ) (L : MCLayer K) (l : MlpLayer K) (hl : L.layers = [l]) (hd : L.cout % L.mlps = 0) :
    numParams (L.save D) = L.mlps * ((D + 1) * l.size) + l.size * L.cin * L.cout := by
  rw [C153_mcconv D L hd]
  have : L.hid = l.size := by unfold MCLayer.hid; rw [hl]; rfl
  rw [hl, this]
  simp only [List.map_cons, List.map_nil, mlpCount]
  ring

/-- **C153, PointConv.** -/
theorem C153_pointconv (D cout : ℕ) (L : PCLayer K) :
    numParams (L.save D cout) = (D + 1) * L.hid + L.hid * L.cin * cout + 49 := by
  unfold numParams PCLayer.save
  simp only [List.map_cons, List.map_nil, List.sum_cons, List.sum_nil, var2_length, List.length_singleton]
  ring

/-- **C153, Conv1x1.** -/
theorem C153_conv1x1 (cin cout : ℕ) (w : ℕ → ℕ → K) (b : ℕ → K) :
    numParams (conv1x1Save cin cout w b) = cin * cout + cout := by
  unfold numParams conv1x1Save
  simp only [List.map_cons, List.map_nil, List.sum_cons, List.sum_nil, var2_length]
  ring

end

/-- **C153, KPConv.** -/
theorem C153_kpconv (D cout : ℕ) (L : KPLayer D) :
    numParams (L.save cout) = L.nk * L.cin * cout + if L.offs.isSome then L.nk * L.cin * (L.nk * D) else 0 := by
  unfold numParams KPLayer.save
  cases L.offs with
  | none => simp [var2_length]
  | some wo =>
    simp [var2_length]
    ring

/-- The formula printed by the introduction notebook for the number of parameters of an `MCConv` layer with one hidden
layer (Introduction.ipynb, cell 36). -/
def notebookCount (cin cout hid : ℕ) : ℕ := (1 + cin) * hid + hid * cin * cout

/-- **C153 fails for the notebook's formula**: it counts the input features instead of the dimensions, one MLP, and
its layer is constructed with the hidden size as the number of MLPs. -/
theorem C153_notebook_false : ¬ ∀ (cin cout hid : ℕ) (L : MCLayer ℝ) (l : MlpLayer ℝ) (final : ℕ → ℕ → ℕ → ℝ),
    l.size = 8 → MCLayer.new cin cout hid [l] final = .ok L → numParams (L.save 3) = notebookCount cin cout hid := by
  intro H
  have h := H 64 64 8 ⟨64, 64, 8, [⟨8, fun _ _ _ => 0, fun _ _ => 0⟩], fun _ _ _ => 0⟩ ⟨8, fun _ _ _ => 0, fun _ _ => 0⟩
    (fun _ _ _ => 0) rfl (by unfold MCLayer.new; simp)
  rw [C153_mcconv_one 3 _ _ rfl (by norm_num)] at h
  norm_num [notebookCount] at h

/-- **C153, the calls of the notebook.** With 8 passed as the fourth argument, which is the number of MLPs, the calls with
one output feature raise. -/
theorem C153_notebook_raises (cin : ℕ) (l : MlpLayer ℝ) (final : ℕ → ℕ → ℕ → ℝ) :
    MCLayer.new cin 1 8 [l] final = .error .valueError := by
  unfold MCLayer.new
  simp

/-- Two layers with two MLPs and hidden layers of sizes 3 and 2, with different numbers, constructed with the same
arguments. -/
example : ∃ L L' : MCLayer ℚ, L.SameArgs L' ∧ L.mlps ≠ 0 ∧ L.cout % L.mlps = 0 ∧ L.layers ≠ [] ∧
    L.save 3 ≠ L'.save 3 ∧ numParams (L.save 3) = 56 :=
  ⟨⟨2, 4, 2, [⟨3, fun m i o => m + i * o, fun _ o => o⟩, ⟨2, fun _ _ _ => 1, fun _ _ => 0⟩], fun m x o => m + x + o⟩,
    ⟨2, 4, 2, [⟨3, fun _ _ _ => 0, fun _ _ => 0⟩, ⟨2, fun _ _ _ => 0, fun _ _ => 0⟩], fun _ _ _ => 0⟩,
    ⟨rfl, rfl, rfl, rfl⟩, by decide, by decide, by simp, by decide +kernel, by decide +kernel⟩

/-- A saved and a restored layer with 7 kernel points and different angles both return on `exRestIn`. -/
example : ∃ L L' L'' : KPLayer 3, KPLayer.builtin 1 7 .linear 0 exRestW none = .ok L ∧
    KPLayer.builtin 1 7 .linear ![0, 0, Real.pi] (fun _ _ => 0) none = .ok L' ∧ L'.load 1 (L.save 1) = some L'' ∧
    (∃ out, L.call (k := 1) .gpu (1 / 100) exRestIn exRestOut 1 none (fun _ _ => 1) = .ok out) ∧
    LayerOk exRestIn exRestOut 1 (1 / 100) := by
  obtain ⟨L'', e, ha, hk⟩ := kp_load 1 (exRestL 0 exRestW)
    (exRestL ![0, 0, Real.pi] (fun _ _ => 0)) (exRestL_same _ _ _ _)
  obtain ⟨o1, c1, _⟩ := exRest_value 0 exRestW (fun _ _ => rfl)
    (exRestL 0 exRestW) rfl rfl (exRestL_nkp _ _) rfl rfl (fun _ _ => rfl) (exRestL_kp _ _)
  exact ⟨_, _, L'', exRest_builtin _ _, exRest_builtin _ _, e, ⟨o1, c1⟩, exRest_ok⟩

end PC
