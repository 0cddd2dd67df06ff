import Verif.CudaSampling
import Verif.CudaStoreLemmas
import Verif.CudaGridLemmas
import Mathlib.Data.List.TakeWhile

/-!
# Lemmas about the CUDA sampling kernels
-/

set_option linter.unusedVariables false
set_option linter.unusedSimpArgs false

namespace PC

/-! ### appending kernels -/

theorem launchThreads_pos {n W : ℕ} (hn : 0 < n) (hW : 0 < W) : 0 < launchThreads n W := by
  unfold launchThreads launchBlocks
  have hM : 0 < execBlocks n 128 := by
    rw [lt_execBlocks (by norm_num), Nat.zero_mul]; exact hn
  split <;> omega

theorem compactProg_flatten (sel : ℕ → Bool) {N T : ℕ} (hT : 0 < T) :
    (((List.range T).map (compactProg sel N T)).flatten).Perm
      (((List.range N).filter sel).map (fun i => (i, 0))) := by
  have e : ((List.range T).map (compactProg sel N T)).flatten =
      ((((List.range T).map (strideLoop T N)).flatten).filter sel).map (fun i => (i, 0)) := by
    rw [List.filter_flatten, List.map_flatten, List.map_map, List.map_map]
    rfl
  rw [e]
  exact ((strideLoop_cover hT).filter _).map _

theorem compact_spec (sel : ℕ → Bool) {N T : ℕ} (hT : 0 < T) (m' : StoreMem)
    (h : CompactKernel sel N T m') :
    m'.cnt 0 = ((List.range N).filter sel).length ∧
    (m'.writes.map Prod.fst).Perm (List.range ((List.range N).filter sel).length) ∧
    ((List.range ((List.range N).filter sel).length).map (fun j => (m'.out j).1)).Perm
      ((List.range N).filter sel) := by
  obtain ⟨ls, hs, hh⟩ := h
  obtain ⟨items, i1, i2⟩ := storeKernel_spec (fun t => compactProg sel N T t) (fun _ => 0) []
    ⟨fun _ => 0, []⟩ m' ls ⟨fun s => rfl, List.Perm.refl _⟩ hs hh
  rw [sum_coe_flatten] at i2
  have i3 : items.Perm (((List.range N).filter sel).map (fun i => (i, 0))) := by
    refine List.Perm.trans ?_ (compactProg_flatten sel hT)
    rw [← Multiset.coe_eq_coe, i2]
    simp
  have hall : ∀ y ∈ items, y.2 = 0 := by
    intro y hy
    rw [i3.mem_iff] at hy
    obtain ⟨i, _, rfl⟩ := List.mem_map.mp hy
    rfl
  have hlen : items.length = ((List.range N).filter sel).length := by rw [i3.length_eq, List.length_map]
  have hc : items.countP (fun y => y.2 = 0) = ((List.range N).filter sel).length := by
    rw [← hlen, List.countP_eq_length]
    intro y hy
    exact decide_eq_true (hall y hy)
  have hsl := assignSlots_slots (fun _ => 0) items 0
  rw [hc] at hsl
  have hfil : (assignSlots (fun _ => 0) items).filter (fun w => w.2.2 = 0) =
      assignSlots (fun _ => 0) items := by
    rw [List.filter_eq_self]
    intro w hw
    refine decide_eq_true (hall w.2 ?_)
    have := List.mem_map_of_mem (f := Prod.snd) hw
    rwa [assignSlots_items] at this
  rw [hfil, ← List.range_eq_range'] at hsl
  have hp : (m'.writes.map Prod.fst).Perm (List.range ((List.range N).filter sel).length) := by
    refine (i1.writes.map Prod.fst).trans ?_
    rw [← hsl]
    exact (List.reverse_perm _).symm
  refine ⟨?_, hp, ?_⟩
  · rw [i1.cnt, hc, Nat.zero_add]
  · have hnd : (m'.writes.map Prod.fst).Nodup := hp.nodup_iff.mpr List.nodup_range
    have hval : ∀ w ∈ assignSlots (fun _ => 0) items, m'.out w.1 = w.2 := by
      intro w hw
      refine runWrites_mem _ _ _ _ (i1.writes.mem_iff.mpr hw) ?_
      intro w' hw' e
      rw [List.inj_on_of_nodup_map hnd hw' (i1.writes.mem_iff.mpr hw) e]
    rw [← hsl]
    refine ((List.reverse_perm _).map _).trans ?_
    rw [List.map_map]
    have e2 : (assignSlots (fun _ => 0) items).map ((fun j => (m'.out j).1) ∘ Prod.fst) =
        items.map Prod.fst := by
      have e3 : items.map Prod.fst = ((assignSlots (fun _ => 0) items).map Prod.snd).map Prod.fst := by
        rw [assignSlots_items]
      rw [e3, List.map_map]
      apply List.map_congr_left
      intro w hw
      show (m'.out w.1).1 = w.2.1
      rw [hval w hw]
    rw [e2]
    refine (i3.map Prod.fst).trans ?_
    rw [List.map_map]
    exact (List.Perm.of_eq (List.map_id _))

theorem exists_storeSteps {T : ℕ} (prog : Fin T → List (ℕ × ℕ)) (m : StoreMem) :
    ∃ m' ls, Steps storeStep (m, fun t => ⟨prog t, none⟩) (m', ls) ∧ Halted storeStep (m', ls) := by
  obtain ⟨⟨m', ls⟩, h1, h2⟩ := Steps.exists_halted (T := T) storeStep
    (fun l => 2 * l.todo.length + (if l.pend.isSome then 1 else 0)) (by
      intro s l s' l' h
      unfold storeStep at h
      split at h
      · next hp => cases h; simp [hp]
      · next hp ht => cases h; simp [hp, ht]; omega
      · cases h) (m, fun t => ⟨prog t, none⟩)
  exact ⟨m', ls, h1, h2⟩

theorem exists_compact (sel : ℕ → Bool) (N T : ℕ) : ∃ m', CompactKernel sel N T m' := by
  obtain ⟨m', ls, h1, h2⟩ := exists_storeSteps (fun t : Fin T => compactProg sel N T t) ⟨fun _ => 0, []⟩
  exact ⟨m', ls, h1, h2⟩

/-! ### counting the keys -/

theorem flatten_first {α : Type*} {B : ℕ} (hB : 0 < B) (a : α) :
    ((List.range B).map (fun t => if t = 0 then [a] else [])).flatten = [a] := by
  obtain ⟨B, rfl⟩ : ∃ n, B = n + 1 := ⟨B - 1, by omega⟩
  rw [List.range_succ_eq_map, List.map_cons, List.flatten_cons, if_pos rfl, List.map_map]
  have : (List.map ((fun t => if t = 0 then [a] else []) ∘ Nat.succ) (List.range B)).flatten = [] := by
    rw [List.flatten_eq_nil_iff]
    intro l hl
    obtain ⟨t, _, rfl⟩ := List.mem_map.mp hl
    show (if t.succ = 0 then [a] else []) = []
    rw [if_neg (Nat.succ_ne_zero t)]
  rw [this]; rfl

theorem keyRun_incs (v : ℕ) (tr : List KeyAct) (h : ∀ a ∈ tr, a = .inc) :
    (keyRun v (tr ++ [.flush])).2 = [v + tr.length] := by
  induction tr generalizing v with
  | nil => rfl
  | cons a tr ih =>
    rw [h a List.mem_cons_self, List.cons_append, keyRun,
      ih (v + 1) (fun x hx => h x (List.mem_cons_of_mem _ hx)), List.length_cons]
    congr 1; omega

theorem length_incs (keys : ℕ → ℤ) (l : List ℕ) :
    (l.flatMap (fun i => if keys i ≠ keys (i + 1) then [KeyAct.inc] else [])).length =
      l.countP (fun i => keys i ≠ keys (i + 1)) := by
  induction l with
  | nil => rfl
  | cons i l ih =>
    rw [List.flatMap_cons, List.length_append, ih, List.countP_cons]
    by_cases h : keys i ≠ keys (i + 1)
    · rw [if_pos h, if_pos (decide_eq_true h), List.length_singleton, Nat.add_comm]
    · rw [if_neg h, if_neg (by simpa using h), List.length_nil, Nat.zero_add, Nat.add_zero]

/-- The number a block adds to the global counter. -/
def blockKeys (N B TB : ℕ) (keys : ℕ → ℤ) (b : ℕ) : ℕ :=
  ((List.range B).map (fun t => (strideLoop (TB * B) (N - 1) (b * B + t)).countP
    (fun i => keys i ≠ keys (i + 1)))).sum

theorem keyBlock_spec {N B TB : ℕ} (hB : 0 < B) (keys : ℕ → ℤ) (b v : ℕ) (btr : List KeyAct)
    (h : Phased (keyPhases N B TB keys b) btr) : (keyRun v btr).2 = [blockKeys N B TB keys b] := by
  unfold keyPhases at h
  cases h with
  | cons h1 h =>
    cases h with
    | cons h2 h =>
      cases h with
      | cons h3 h =>
        cases h
        have p1 := h1.perm
        have p3 := h3.perm
        rw [flatten_first hB] at p1 p3
        rw [List.perm_singleton.mp p1, List.perm_singleton.mp p3, List.append_nil, List.singleton_append,
          keyRun, keyRun_incs, Nat.zero_add, h2.perm.length_eq, List.length_flatten, List.map_map,
          blockKeys]
        · congr 2
          apply List.map_congr_left
          intro t _
          exact length_incs keys _
        · intro a ha
          obtain ⟨p, hp, hap⟩ := h2.mem ha
          obtain ⟨t, _, rfl⟩ := List.mem_map.mp hp
          rw [List.mem_flatMap] at hap
          obtain ⟨i, _, hi⟩ := hap
          split at hi
          · exact List.mem_singleton.mp hi
          · cases hi

theorem sum_blockKeys {N B TB : ℕ} (hB : 0 < B) (hTB : 0 < TB) (keys : ℕ → ℤ) :
    ((List.range TB).map (blockKeys N B TB keys)).sum =
      (List.range (N - 1)).countP (fun i => keys i ≠ keys (i + 1)) := by
  have e : ((List.range TB).map (blockKeys N B TB keys)).sum =
      (((List.range (TB * B)).map (strideLoop (TB * B) (N - 1))).flatten).countP
        (fun i => keys i ≠ keys (i + 1)) := by
    rw [range_mul_eq TB B, List.countP_flatten, List.map_map, List.map_flatMap, List.flatMap_def,
      List.sum_flatten, List.map_map]
    congr 1
    apply List.map_congr_left
    intro b _
    simp only [Function.comp, blockKeys, List.map_map]
    rfl
  rw [e]
  exact (strideLoop_cover (Nat.mul_pos hTB hB)).countP_eq _

theorem firsts_length {N : ℕ} (hN : 0 < N) (keys : ℕ → ℤ) :
    ((List.range N).filter (isFirstKey keys)).length =
      (List.range (N - 1)).countP (fun i => keys i ≠ keys (i + 1)) + 1 := by
  obtain ⟨n, rfl⟩ : ∃ n, N = n + 1 := ⟨N - 1, by omega⟩
  rw [← List.countP_eq_length_filter, List.range_succ_eq_map, List.countP_cons, List.countP_map,
    if_pos (show isFirstKey keys 0 = true from decide_eq_true (Or.inl rfl)), Nat.add_sub_cancel]
  congr 1
  apply List.countP_congr
  intro i _
  simp only [Function.comp, isFirstKey, decide_eq_true_eq, Nat.succ_eq_add_one, Nat.add_sub_cancel]
  constructor
  · rintro (h | h)
    · omega
    · exact fun e => h e.symm
  · exact fun h => Or.inr (fun e => h e.symm)

theorem countKeys_spec {N B W : ℕ} (hN : 0 < N) (hB : 0 < B) (hW : 0 < W) (keys : ℕ → ℤ) (n : ℕ)
    (h : CountKeys N B W keys n) : n = ((List.range N).filter (isFirstKey keys)).length := by
  obtain ⟨adds, tr, h1, h2, h3, rfl⟩ := h
  have hTB : 0 < launchBlocks W (execBlocks N B) := by
    unfold launchBlocks
    have : 0 < execBlocks N B := by rw [lt_execBlocks hB, Nat.zero_mul]; exact hN
    split <;> omega
  generalize launchBlocks W (execBlocks N B) = TB at h1 h2 hTB
  have e : adds = (List.range TB).map (fun b => [blockKeys N B TB keys b]) := by
    apply List.ext_getElem?
    intro b
    by_cases hb : b < TB
    · have hl : adds[b]? = some adds[b] := List.getElem?_eq_getElem (by omega)
      obtain ⟨v, btr, hp, hv⟩ := h2 b _ hl
      rw [hl, hv, keyBlock_spec hB keys b v btr hp]
      simp [hb]
    · rw [List.getElem?_eq_none (by omega), List.getElem?_eq_none (by simp; omega)]
  rw [firsts_length hN, h3.perm.sum_eq, e, List.sum_flatten, List.map_map,
    ← sum_blockKeys hB hTB keys]
  simp [Function.comp_def]

theorem exists_countKeys (N B W : ℕ) (keys : ℕ → ℤ) : ∃ n, CountKeys N B W keys n := by
  have hb : ∀ b, ∃ l, ∃ (v : ℕ) (btr : List KeyAct),
      Phased (keyPhases N B (launchBlocks W (execBlocks N B)) keys b) btr ∧ l = (keyRun v btr).2 :=
    fun b => by
      obtain ⟨btr, h⟩ := Phased.exists_seq (keyPhases N B (launchBlocks W (execBlocks N B)) keys b)
      exact ⟨_, 0, btr, h, rfl⟩
  choose l hl using hb
  refine ⟨_, (List.range (launchBlocks W (execBlocks N B))).map l, _, by simp, ?_,
    Interleave.exists_seq _, rfl⟩
  intro b l' hb
  simp only [List.getElem?_map, Option.map_eq_some_iff] at hb
  obtain ⟨x, hx, rfl⟩ := hb
  have : x = b := by
    rw [List.getElem?_eq_some_iff] at hx
    obtain ⟨h, e⟩ := hx
    simpa using e.symm
  subst this
  exact hl x

/-! ### runs of equal keys -/

/-- Equal keys are next to each other. -/
def Grouped (N : ℕ) (keys : ℕ → ℤ) : Prop :=
  ∀ i j k, i ≤ j → j ≤ k → k < N → keys i = keys k → keys j = keys i

theorem grouped_of_antitone {N : ℕ} {keys : ℕ → ℤ}
    (h : ∀ i j, i ≤ j → j < N → keys j ≤ keys i) : Grouped N keys := by
  intro i j k hij hjk hk e
  have h1 := h i j hij (by omega)
  have h2 := h j k hjk hk
  omega

theorem mem_takeWhile_iff {α : Type*} (p : α → Bool) (l : List α) (i : ℕ) (hi : i < l.length)
    (hp : ∀ j (hj : j < l.length), j < i → p l[i] → p l[j]) :
    i < (l.takeWhile p).length ↔ p l[i] := by
  induction l generalizing i with
  | nil => simp at hi
  | cons a l ih =>
    cases i with
    | zero =>
      rw [List.takeWhile_cons]
      by_cases h : p a <;> simp [h]
    | succ i =>
      have hi' : i < l.length := by simpa using hi
      have key := ih i hi' (fun j hj hji hq => by
        exact hp (j + 1) (by simpa using hj) (by omega) hq)
      rw [List.takeWhile_cons]
      by_cases h : p a
      · rw [if_pos h, List.length_cons, Nat.add_lt_add_iff_right, key]; simp
      · rw [if_neg h]
        simp only [List.length_nil, List.getElem_cons_succ]
        constructor
        · intro h'; omega
        · intro hq
          exact absurd (hp 0 (by simp) (by omega) hq) h

theorem mem_cellRun {N : ℕ} {keys : ℕ → ℤ} (hg : Grouped N keys) {f : ℕ} (hf : f < N)
    (hfirst : isFirstKey keys f = true) (j : ℕ) :
    j ∈ cellRun N keys f ↔ j < N ∧ keys j = keys f := by
  unfold cellRun
  constructor
  · intro h
    have h1 := (List.takeWhile_prefix _).subset h
    have h2 := List.mem_takeWhile_imp h
    rw [List.mem_range'_1] at h1
    exact ⟨by omega, by simpa using h2⟩
  · rintro ⟨hj, e⟩
    have hle : f ≤ j := by
      by_contra hlt
      have : keys (f - 1) = keys j := hg j (f - 1) f (by omega) (by omega) hf e
      rw [isFirstKey, decide_eq_true_eq] at hfirst
      rcases hfirst with h0 | h0
      · omega
      · exact h0 (by rw [this, e])
    obtain ⟨d, rfl⟩ := Nat.exists_eq_add_of_le hle
    have hlen : d < (List.range' f (N - f)).length := by rw [List.length_range']; omega
    have hmem := (mem_takeWhile_iff (fun j => decide (keys j = keys f)) (List.range' f (N - f)) d hlen (by
      intro a ha had hq
      simp only [List.getElem_range', Nat.one_mul, decide_eq_true_eq] at hq ⊢
      exact hg f (f + a) (f + d) (by omega) (by omega) (by omega) hq.symm)).mpr (by simpa using e)
    have := List.getElem_mem hmem
    rwa [List.IsPrefix.getElem (List.takeWhile_prefix _) hmem, List.getElem_range', Nat.one_mul] at this

theorem nodup_cellRun (N : ℕ) (keys : ℕ → ℤ) (f : ℕ) : (cellRun N keys f).Nodup :=
  (List.nodup_range').sublist (List.takeWhile_prefix _).sublist

/-- Every key has a first position. -/
theorem exists_firstKey {N : ℕ} (keys : ℕ → ℤ) (j : ℕ) (hj : j < N) :
    ∃ f, f < N ∧ isFirstKey keys f = true ∧ keys f = keys j := by
  induction j with
  | zero => exact ⟨0, hj, decide_eq_true (Or.inl rfl), rfl⟩
  | succ j ih =>
    by_cases h : keys (j + 1) = keys j
    · obtain ⟨f, h1, h2, h3⟩ := ih (by omega)
      exact ⟨f, h1, h2, by rw [h3, h]⟩
    · exact ⟨j + 1, hj, decide_eq_true (Or.inr h), rfl⟩

theorem firstKey_inj {N : ℕ} {keys : ℕ → ℤ} (hg : Grouped N keys) {f f' : ℕ} (hf : f < N) (hf' : f' < N)
    (h : isFirstKey keys f = true) (h' : isFirstKey keys f' = true) (e : keys f = keys f') : f = f' := by
  rw [isFirstKey, decide_eq_true_eq] at h h'
  rcases Nat.lt_trichotomy f f' with hl | hl | hl
  · exfalso
    have := hg f (f' - 1) f' (by omega) (by omega) hf' e
    rcases h' with h' | h'
    · omega
    · exact h' (by rw [this, e])
  · exact hl
  · exfalso
    have := hg f' (f - 1) f (by omega) (by omega) hf e.symm
    rcases h with h | h
    · omega
    · exact h (by rw [this, e])

/-- `firsts` lists the first positions of the keys, each once. -/
structure FirstsOf (N : ℕ) (keys : ℕ → ℤ) (n : ℕ) (firsts : ℕ → ℕ) : Prop where
  first : ∀ u < n, firsts u < N ∧ isFirstKey keys (firsts u) = true
  inj : ∀ u u', u < n → u' < n → keys (firsts u) = keys (firsts u') → u = u'
  surj : ∀ j < N, ∃ u < n, keys (firsts u) = keys j

theorem firstsOf_compact {N W : ℕ} {keys : ℕ → ℤ} (hg : Grouped N keys) (hN : 0 < N) (hW : 0 < W)
    (m : StoreMem) (h : CompactKernel (isFirstKey keys) N (launchThreads N W) m) :
    FirstsOf N keys ((List.range N).filter (isFirstKey keys)).length (fun u => (m.out u).1) := by
  obtain ⟨_, _, hp⟩ := compact_spec _ (launchThreads_pos hN hW) m h
  generalize ((List.range N).filter (isFirstKey keys)).length = n at hp
  have hmem : ∀ u < n, (m.out u).1 < N ∧ isFirstKey keys (m.out u).1 = true := by
    intro u hu
    have : (m.out u).1 ∈ (List.range N).filter (isFirstKey keys) := by
      rw [← hp.mem_iff]
      exact List.mem_map.mpr ⟨u, List.mem_range.mpr hu, rfl⟩
    rw [List.mem_filter, List.mem_range] at this
    exact this
  refine ⟨hmem, ?_, ?_⟩
  · intro u u' hu hu' e
    have e' := firstKey_inj hg (hmem u hu).1 (hmem u' hu').1 (hmem u hu).2 (hmem u' hu').2 e
    have hnd : ((List.range n).map (fun j => (m.out j).1)).Nodup :=
      hp.nodup_iff.mpr (List.nodup_range.filter _)
    exact List.inj_on_of_nodup_map hnd (List.mem_range.mpr hu) (List.mem_range.mpr hu') e'
  · intro j hj
    obtain ⟨f, h1, h2, h3⟩ := exists_firstKey keys j hj
    have : f ∈ (List.range n).map (fun j => (m.out j).1) := by
      rw [hp.mem_iff, List.mem_filter, List.mem_range]
      exact ⟨h1, h2⟩
    obtain ⟨u, hu, rfl⟩ := List.mem_map.mp this
    exact ⟨u, List.mem_range.mp hu, h3⟩

/-! ### Poisson disk sampling -/

/-- The point a thread is working on. -/
def PdCur.pt : PdCur → Option ℕ
  | .idle => none
  | .scan i _ _ => some i
  | .mark i => some i

/-- A counter increment whose mark is still missing. -/
def PdThread.pend (l : PdThread) : ℕ :=
  match l.cur with
  | .mark _ => 1
  | _ => 0

/-- What holds between the actions of a call.  `P` are the points of the finished
calls, `prog t` the points of thread `t`. -/
structure PdInv {T : ℕ} (N : ℕ) (nb : ℕ → List ℕ) (P : ℕ → Prop) (prog : Fin T → List ℕ)
    (c : PdMem × (Fin T → PdThread)) : Prop where
  bound : ∀ i, c.1.used i = true → i < N
  indep : ∀ i j, c.1.used i = true → c.1.used j = true → j ∈ nb i → i = j
  cover : ∀ i, (P i ∨ ∃ t, i ∈ prog t) → c.1.used i = true ∨ (∃ n ∈ nb i, c.1.used n = true) ∨
    ∃ t, i ∈ (c.2 t).todo ∨ (c.2 t).cur.pt = some i
  within : ∀ t i, i ∈ (c.2 t).todo ∨ (c.2 t).cur.pt = some i → i ∈ prog t ∧ c.1.used i = false
  distinct : ∀ t, (c.2 t).todo.Nodup ∧ ∀ i, (c.2 t).cur.pt = some i → i ∉ (c.2 t).todo
  scanT : ∀ t i rest, (c.2 t).cur = .scan i rest true → ∀ n ∈ nb i, n ∈ rest ∨ c.1.used n = false
  scanF : ∀ t i rest, (c.2 t).cur = .scan i rest false → ∃ n ∈ nb i, c.1.used n = true
  sub : ∀ t i rest v, (c.2 t).cur = .scan i rest v → ∀ n ∈ rest, n ∈ nb i
  marks : ∀ t i, (c.2 t).cur = .mark i → ∀ n ∈ nb i, c.1.used n = false
  count : c.1.count = ((Finset.range N).filter (fun i => c.1.used i = true)).card +
    ∑ t, (c.2 t).pend

theorem pdInv_step {T : ℕ} {N : ℕ} {nb : ℕ → List ℕ} {P : ℕ → Prop} {prog : Fin T → List ℕ}
    (hN : ∀ t, ∀ i ∈ prog t, i < N) (hsym : ∀ i j, i < N → j < N → j ∈ nb i → i ∈ nb j)
    (hsep : ∀ t t', t ≠ t' → ∀ i ∈ prog t, ∀ j ∈ prog t', i ≠ j ∧ i ∉ nb j)
    (s : PdMem) (ls : Fin T → PdThread) (t : Fin T) (s' : PdMem) (l' : PdThread)
    (h : PdInv N nb P prog (s, ls)) (hs : pdStep nb s (ls t) = some (s', l')) :
    PdInv N nb P prog (s', Function.update ls t l') := by
  obtain ⟨h1, h2, h3, h4, h5, h6, h7, h10, h8, h9⟩ := h
  simp only at h1 h2 h3 h4 h5 h6 h7 h8 h9 h10
  have up := sum_upd PdThread.pend ls t l'
  -- lifting a statement about the thread and about the others
  have lift : ∀ {Q : Fin T → PdThread → Prop}, Q t l' → (∀ x, x ≠ t → Q x (ls x)) →
      ∀ x, Q x (Function.update ls t l' x) := by
    intro Q hq ho x
    by_cases hx : x = t
    · subst hx; rw [Function.update_self]; exact hq
    · rw [Function.update_of_ne hx]; exact ho x hx
  have ex : ∀ {Q : PdThread → Prop}, (∀ x, Q (ls x) → x ≠ t ∨ Q l') → (∃ x, Q (ls x)) →
      ∃ x, Q (Function.update ls t l' x) := by
    intro Q hq ⟨x, hx⟩
    by_cases hxt : x = t
    · refine ⟨t, ?_⟩
      rw [Function.update_self]
      rcases hq x hx with h | h
      · exact absurd hxt h
      · exact h
    · exact ⟨x, by rw [Function.update_of_ne hxt]; exact hx⟩
  unfold pdStep at hs
  split at hs
  · -- the mark is written
    next i hc =>
    cases hs
    have hi := h4 t i (Or.inr (by rw [hc]; rfl))
    have hfr := h8 t i hc
    have hiN := hN t i hi.1
    have hused : ∀ j, Function.update s.used i true j = true ↔ j = i ∨ s.used j = true := by
      intro j
      by_cases hj : j = i
      · subst hj; rw [Function.update_self]; simp
      · rw [Function.update_of_ne hj]; simp [hj]
    have hunused : ∀ j, j ≠ i → s.used j = false → Function.update s.used i true j = false := by
      intro j hj hu
      rw [Function.update_of_ne hj]; exact hu
    refine ⟨?_, ?_, ?_, ?_, ?_, ?_, ?_, ?_, ?_, ?_⟩
    · intro j hj
      rcases (hused j).mp hj with rfl | hj
      · exact hiN
      · exact h1 j hj
    · intro a b ha hb hab
      simp only at ha hb
      rw [hused] at ha hb
      rcases ha with rfl | ha <;> rcases hb with rfl | hb
      · rfl
      · have := hfr b hab
        rw [hb] at this; cases this
      · have := hfr a (hsym a b (h1 a ha) hiN hab)
        rw [ha] at this; cases this
      · exact h2 a b ha hb hab
    · intro j hj
      simp only
      rw [hused]
      by_cases hji : j = i
      · exact Or.inl (Or.inl hji)
      · rcases h3 j hj with h | ⟨n, hn, hu⟩ | h
        · exact Or.inl (Or.inr h)
        · exact Or.inr (Or.inl ⟨n, hn, (hused n).mpr (Or.inr hu)⟩)
        · refine Or.inr (Or.inr (ex (Q := fun l => j ∈ l.todo ∨ l.cur.pt = some j) ?_ h))
          intro x hx
          by_cases hxt : x = t
          · right
            subst hxt
            rcases hx with hx | hx
            · exact Or.inl hx
            · rw [hc] at hx
              exact absurd (Option.some.inj hx).symm hji
          · exact Or.inl hxt
    · refine lift (Q := fun x l => ∀ j, j ∈ l.todo ∨ l.cur.pt = some j →
        j ∈ prog x ∧ Function.update s.used i true j = false) ?_ ?_
      · intro j hj
        rcases hj with hj | hj
        · have := h4 t j (Or.inl hj)
          refine ⟨this.1, hunused j ?_ this.2⟩
          rintro rfl
          exact (h5 t).2 j (by rw [hc]; rfl) hj
        · cases hj
      · intro x hx j hj
        have := h4 x j hj
        exact ⟨this.1, hunused j (hsep x t hx j this.1 i hi.1).1 this.2⟩
    · refine lift (Q := fun x l => l.todo.Nodup ∧ ∀ j, l.cur.pt = some j → j ∉ l.todo) ?_ (fun x _ => h5 x)
      exact ⟨(h5 t).1, fun j hj => by cases hj⟩
    · refine lift (Q := fun x l => ∀ j rest, l.cur = .scan j rest true →
        ∀ n ∈ nb j, n ∈ rest ∨ Function.update s.used i true n = false) ?_ ?_
      · intro j rest hj; cases hj
      · intro x hx j rest hj n hn
        have hjp := (h4 x j (Or.inr (by rw [hj]; rfl))).1
        rcases h6 x j rest hj n hn with h | h
        · exact Or.inl h
        · refine Or.inr (hunused n ?_ h)
          rintro rfl
          exact (hsep t x (Ne.symm hx) n hi.1 j hjp).2 hn
    · refine lift (Q := fun x l => ∀ j rest, l.cur = .scan j rest false →
        ∃ n ∈ nb j, Function.update s.used i true n = true) ?_ ?_
      · intro j rest hj; cases hj
      · intro x hx j rest hj
        obtain ⟨n, hn, hu⟩ := h7 x j rest hj
        exact ⟨n, hn, (hused n).mpr (Or.inr hu)⟩
    · refine lift (Q := fun x l => ∀ j rest v, l.cur = .scan j rest v → ∀ n ∈ rest, n ∈ nb j) ?_
        (fun x _ => h10 x)
      intro j rest' w hj
      cases hj
    · refine lift (Q := fun x l => ∀ j, l.cur = .mark j →
        ∀ n ∈ nb j, Function.update s.used i true n = false) ?_ ?_
      · intro j hj; cases hj
      · intro x hx j hj n hn
        have hjp := (h4 x j (Or.inr (by rw [hj]; rfl))).1
        refine hunused n ?_ (h8 x j hj n hn)
        rintro rfl
        exact (hsep t x (Ne.symm hx) n hi.1 j hjp).2 hn
    · simp only
      have e1 : (ls t).pend = 1 := by unfold PdThread.pend; rw [hc]
      have e2 : (⟨(ls t).todo, .idle⟩ : PdThread).pend = 0 := rfl
      rw [e1, e2] at up
      have e3 : (Finset.range N).filter (fun j => Function.update s.used i true j = true) =
          insert i ((Finset.range N).filter (fun j => s.used j = true)) := by
        ext j
        rw [Finset.mem_insert, Finset.mem_filter, Finset.mem_filter, hused, Finset.mem_range]
        constructor
        · rintro ⟨a, rfl | b⟩
          · exact Or.inl rfl
          · exact Or.inr ⟨a, b⟩
        · rintro (rfl | ⟨a, b⟩)
          · exact ⟨hiN, Or.inl rfl⟩
          · exact ⟨a, Or.inr b⟩
      rw [e3, Finset.card_insert_of_notMem (by simp [hi.2])]
      omega
  · -- a read
    next i n rest v hc =>
    cases hs
    have e1 : (ls t).pend = 0 := by unfold PdThread.pend; rw [hc]
    have e2 : (⟨(ls t).todo, .scan i rest (v && !s.used n)⟩ : PdThread).pend = 0 := rfl
    rw [e1, e2] at up
    refine ⟨h1, h2, ?_, ?_, ?_, ?_, ?_, ?_, ?_, ?_⟩
    · intro j hj
      rcases h3 j hj with h | h | h
      · exact Or.inl h
      · exact Or.inr (Or.inl h)
      · refine Or.inr (Or.inr (ex (Q := fun l => j ∈ l.todo ∨ l.cur.pt = some j) ?_ h))
        intro x hx
        by_cases hxt : x = t
        · subst hxt
          rw [hc] at hx
          exact Or.inr hx
        · exact Or.inl hxt
    · refine lift (Q := fun x l => ∀ j, j ∈ l.todo ∨ l.cur.pt = some j →
        j ∈ prog x ∧ s.used j = false) ?_ (fun x _ => h4 x)
      intro j hj
      refine h4 t j ?_
      rw [hc]; exact hj
    · refine lift (Q := fun x l => l.todo.Nodup ∧ ∀ j, l.cur.pt = some j → j ∉ l.todo) ?_ (fun x _ => h5 x)
      have := h5 t
      rw [hc] at this
      exact this
    · refine lift (Q := fun x l => ∀ j rest, l.cur = .scan j rest true →
        ∀ n ∈ nb j, n ∈ rest ∨ s.used n = false) ?_ (fun x _ => h6 x)
      intro j rest' hj q hq
      simp only [PdCur.scan.injEq] at hj
      obtain ⟨rfl, rfl, hv⟩ := hj
      rw [Bool.and_eq_true] at hv
      rcases h6 t i (n :: rest) (by rw [hc, hv.1]) q hq with h | h
      · rcases List.mem_cons.mp h with rfl | h
        · exact Or.inr (by simpa using hv.2)
        · exact Or.inl h
      · exact Or.inr h
    · refine lift (Q := fun x l => ∀ j rest, l.cur = .scan j rest false →
        ∃ n ∈ nb j, s.used n = true) ?_ (fun x _ => h7 x)
      intro j rest' hj
      simp only [PdCur.scan.injEq] at hj
      obtain ⟨rfl, rfl, hv⟩ := hj
      cases v with
      | false => exact h7 t i (n :: rest) hc
      | true =>
        simp only [Bool.true_and, Bool.not_eq_false'] at hv
        exact ⟨n, h10 t i (n :: rest) _ hc n List.mem_cons_self, hv⟩
    · refine lift (Q := fun x l => ∀ j rest v, l.cur = .scan j rest v → ∀ n ∈ rest, n ∈ nb j) ?_
        (fun x _ => h10 x)
      intro j rest' w hj q hq
      simp only [PdCur.scan.injEq] at hj
      obtain ⟨rfl, rfl, hv⟩ := hj
      exact h10 t i (n :: rest) v hc q (List.mem_cons_of_mem _ hq)
    · refine lift (Q := fun x l => ∀ j, l.cur = .mark j → ∀ n ∈ nb j, s.used n = false) ?_ (fun x _ => h8 x)
      intro j hj; cases hj
    · rw [show ∑ x, (Function.update ls t _ x).pend = ∑ x, (ls x).pend by simpa using up]
      exact h9
  · -- the point is selected
    next i hc =>
    cases hs
    have e1 : (ls t).pend = 0 := by unfold PdThread.pend; rw [hc]
    have e2 : (⟨(ls t).todo, .mark i⟩ : PdThread).pend = 1 := rfl
    rw [e1, e2] at up
    refine ⟨h1, h2, ?_, ?_, ?_, ?_, ?_, ?_, ?_, ?_⟩
    · intro j hj
      rcases h3 j hj with h | h | h
      · exact Or.inl h
      · exact Or.inr (Or.inl h)
      · refine Or.inr (Or.inr (ex (Q := fun l => j ∈ l.todo ∨ l.cur.pt = some j) ?_ h))
        intro x hx
        by_cases hxt : x = t
        · subst hxt
          rw [hc] at hx
          exact Or.inr hx
        · exact Or.inl hxt
    · refine lift (Q := fun x l => ∀ j, j ∈ l.todo ∨ l.cur.pt = some j →
        j ∈ prog x ∧ s.used j = false) ?_ (fun x _ => h4 x)
      intro j hj
      refine h4 t j ?_
      rw [hc]; exact hj
    · refine lift (Q := fun x l => l.todo.Nodup ∧ ∀ j, l.cur.pt = some j → j ∉ l.todo) ?_ (fun x _ => h5 x)
      have := h5 t
      rw [hc] at this
      exact this
    · refine lift (Q := fun x l => ∀ j rest, l.cur = .scan j rest true →
        ∀ n ∈ nb j, n ∈ rest ∨ s.used n = false) ?_ (fun x _ => h6 x)
      intro j rest' hj; cases hj
    · refine lift (Q := fun x l => ∀ j rest, l.cur = .scan j rest false →
        ∃ n ∈ nb j, s.used n = true) ?_ (fun x _ => h7 x)
      intro j rest' hj; cases hj
    · refine lift (Q := fun x l => ∀ j rest v, l.cur = .scan j rest v → ∀ n ∈ rest, n ∈ nb j) ?_
        (fun x _ => h10 x)
      intro j rest' w hj
      cases hj
    · refine lift (Q := fun x l => ∀ j, l.cur = .mark j → ∀ n ∈ nb j, s.used n = false) ?_ (fun x _ => h8 x)
      intro j hj n hn
      cases hj
      rcases h6 t i [] hc n hn with h | h
      · cases h
      · exact h
    · simp only
      omega
  · -- the point is rejected
    next i hc =>
    cases hs
    have e1 : (ls t).pend = 0 := by unfold PdThread.pend; rw [hc]
    have e2 : (⟨(ls t).todo, .idle⟩ : PdThread).pend = 0 := rfl
    rw [e1, e2] at up
    refine ⟨h1, h2, ?_, ?_, ?_, ?_, ?_, ?_, ?_, ?_⟩
    · intro j hj
      by_cases hji : j = i
      · subst hji
        exact Or.inr (Or.inl (h7 t j [] hc))
      · rcases h3 j hj with h | h | h
        · exact Or.inl h
        · exact Or.inr (Or.inl h)
        · refine Or.inr (Or.inr (ex (Q := fun l => j ∈ l.todo ∨ l.cur.pt = some j) ?_ h))
          intro x hx
          by_cases hxt : x = t
          · right
            subst hxt
            rcases hx with hx | hx
            · exact Or.inl hx
            · rw [hc] at hx
              exact absurd (Option.some.inj hx).symm hji
          · exact Or.inl hxt
    · refine lift (Q := fun x l => ∀ j, j ∈ l.todo ∨ l.cur.pt = some j →
        j ∈ prog x ∧ s.used j = false) ?_ (fun x _ => h4 x)
      intro j hj
      rcases hj with hj | hj
      · exact h4 t j (Or.inl hj)
      · cases hj
    · refine lift (Q := fun x l => l.todo.Nodup ∧ ∀ j, l.cur.pt = some j → j ∉ l.todo) ?_ (fun x _ => h5 x)
      exact ⟨(h5 t).1, fun j hj => by cases hj⟩
    · refine lift (Q := fun x l => ∀ j rest, l.cur = .scan j rest true →
        ∀ n ∈ nb j, n ∈ rest ∨ s.used n = false) ?_ (fun x _ => h6 x)
      intro j rest' hj; cases hj
    · refine lift (Q := fun x l => ∀ j rest, l.cur = .scan j rest false →
        ∃ n ∈ nb j, s.used n = true) ?_ (fun x _ => h7 x)
      intro j rest' hj; cases hj
    · refine lift (Q := fun x l => ∀ j rest v, l.cur = .scan j rest v → ∀ n ∈ rest, n ∈ nb j) ?_
        (fun x _ => h10 x)
      intro j rest' w hj
      cases hj
    · refine lift (Q := fun x l => ∀ j, l.cur = .mark j → ∀ n ∈ nb j, s.used n = false) ?_ (fun x _ => h8 x)
      intro j hj; cases hj
    · rw [show ∑ x, (Function.update ls t _ x).pend = ∑ x, (ls x).pend by simpa using up]
      exact h9
  · -- the next point, or the end
    next hc =>
    split at hs
    · next i todo htd =>
      cases hs
      have e1 : (ls t).pend = 0 := by unfold PdThread.pend; rw [hc]
      have e2 : (⟨todo, .scan i (nb i) true⟩ : PdThread).pend = 0 := rfl
      rw [e1, e2] at up
      have hnd := (h5 t).1
      rw [htd, List.nodup_cons] at hnd
      refine ⟨h1, h2, ?_, ?_, ?_, ?_, ?_, ?_, ?_, ?_⟩
      · intro j hj
        rcases h3 j hj with h | h | h
        · exact Or.inl h
        · exact Or.inr (Or.inl h)
        · refine Or.inr (Or.inr (ex (Q := fun l => j ∈ l.todo ∨ l.cur.pt = some j) ?_ h))
          intro x hx
          by_cases hxt : x = t
          · right
            subst hxt
            rw [htd, hc] at hx
            rcases hx with hx | hx
            · rcases List.mem_cons.mp hx with rfl | hx
              · exact Or.inr rfl
              · exact Or.inl hx
            · cases hx
          · exact Or.inl hxt
      · refine lift (Q := fun x l => ∀ j, j ∈ l.todo ∨ l.cur.pt = some j →
          j ∈ prog x ∧ s.used j = false) ?_ (fun x _ => h4 x)
        intro j hj
        refine h4 t j (Or.inl ?_)
        rw [htd]
        rcases hj with hj | hj
        · exact List.mem_cons_of_mem _ hj
        · rw [Option.some.inj hj]; exact List.mem_cons_self
      · refine lift (Q := fun x l => l.todo.Nodup ∧ ∀ j, l.cur.pt = some j → j ∉ l.todo) ?_ (fun x _ => h5 x)
        refine ⟨hnd.2, fun j hj => ?_⟩
        rw [← Option.some.inj hj]
        exact hnd.1
      · refine lift (Q := fun x l => ∀ j rest, l.cur = .scan j rest true →
          ∀ n ∈ nb j, n ∈ rest ∨ s.used n = false) ?_ (fun x _ => h6 x)
        intro j rest' hj n hn
        simp only [PdCur.scan.injEq] at hj
        obtain ⟨rfl, rfl, _⟩ := hj
        exact Or.inl hn
      · refine lift (Q := fun x l => ∀ j rest, l.cur = .scan j rest false →
          ∃ n ∈ nb j, s.used n = true) ?_ (fun x _ => h7 x)
        intro j rest' hj; cases hj
      · refine lift (Q := fun x l => ∀ j rest v, l.cur = .scan j rest v → ∀ n ∈ rest, n ∈ nb j) ?_
          (fun x _ => h10 x)
        intro j rest' w hj q hq
        simp only [PdCur.scan.injEq] at hj
        obtain ⟨rfl, rfl, _⟩ := hj
        exact hq
      · refine lift (Q := fun x l => ∀ j, l.cur = .mark j → ∀ n ∈ nb j, s.used n = false) ?_ (fun x _ => h8 x)
        intro j hj; cases hj
      · rw [show ∑ x, (Function.update ls t _ x).pend = ∑ x, (ls x).pend by simpa using up]
        exact h9
    · cases hs

theorem pdCode_inj (D : ℕ) (c c' : ℕ) (hc : c < 2 ^ D) (hc' : c' < 2 ^ D)
    (h : ∀ d < D, pdCode c d = pdCode c' d) : c = c' := by
  induction D generalizing c c' with
  | zero => simp at hc hc'; omega
  | succ D ih =>
    have h0 := h 0 (by omega)
    simp only [pdCode] at h0
    rw [pow_succ] at hc hc'
    have := ih (c / 2) (c' / 2) (by omega) (by omega) (fun d hd => h (d + 1) (by omega))
    omega

theorem pdCode_surj (D : ℕ) (e : ℕ → ℕ) (he : ∀ d < D, e d < 2) :
    ∃ c < 2 ^ D, ∀ d < D, pdCode c d = e d := by
  induction D generalizing e with
  | zero => exact ⟨0, by simp, by omega⟩
  | succ D ih =>
    obtain ⟨c, hc, h⟩ := ih (fun d => e (d + 1)) (fun d hd => he (d + 1) (by omega))
    have h0 := he 0 (by omega)
    refine ⟨e 0 + 2 * c, by rw [pow_succ]; omega, ?_⟩
    intro d hd
    cases d with
    | zero => simp only [pdCode]; omega
    | succ d =>
      simp only [pdCode]
      rw [show (e 0 + 2 * c) / 2 = c by omega]
      exact h d (by omega)

theorem pdValid_inj {D : ℕ} (nc : Fin D → ℤ) (key : ℤ) {c c' : ℕ} (hc : c < 2 ^ D) (hc' : c' < 2 ^ D)
    (h : pdValid nc c key = true) (h' : pdValid nc c' key = true) : c = c' := by
  rw [pdValid, decide_eq_true_eq] at h h'
  refine pdCode_inj D c c' hc hc' ?_
  intro d hd
  have e1 := h ⟨d, hd⟩
  have e2 := h' ⟨d, hd⟩
  rw [e1] at e2
  exact_mod_cast e2

theorem pdValid_exists {D : ℕ} (nc : Fin D → ℤ) (hn : ∀ d, 0 < nc d) (key : ℤ) (hk : 0 ≤ key) :
    ∃ c < 2 ^ D, pdValid nc c key = true := by
  obtain ⟨_, h2, _⟩ := cuDecode_spec nc hn key hk
  have hm : ∀ d, (cuDecode key nc).2 d % 2 = (cuDecode key nc).2 d - 2 * ((cuDecode key nc).2 d / 2) := by
    intro d; omega
  obtain ⟨c, hc, h⟩ := pdCode_surj D
    (fun d => if h : d < D then ((cuDecode key nc).2 ⟨d, h⟩ % 2).toNat else 0) (by
      intro d hd
      simp only [dif_pos hd]
      omega)
  refine ⟨c, hc, ?_⟩
  rw [pdValid, decide_eq_true_eq]
  intro d
  have e := h d.val d.isLt
  simp only [dif_pos d.isLt] at e
  rw [e, Int.tmod_eq_emod_of_nonneg (h2 d).1]
  have : 0 ≤ (cuDecode key nc).2 d % 2 := by omega
  rw [Int.toNat_of_nonneg this]

section
variable {D N numKeys : ℕ} {keys : ℕ → ℤ} {nc : Fin D → ℤ} {firsts : ℕ → ℕ}

theorem mem_pdProg (hg : Grouped N keys) (hf : FirstsOf N keys numKeys firsts) (T c t i : ℕ) :
    i ∈ pdProg N keys nc c firsts numKeys T t ↔ i < N ∧ pdValid nc c (keys i) = true ∧
      ∃ u ∈ strideLoop T numKeys t, u < numKeys ∧ keys (firsts u) = keys i := by
  unfold pdProg
  rw [List.mem_flatMap]
  constructor
  · rintro ⟨u, hu, hi⟩
    have hun : u < numKeys := by
      by_cases hT : 0 < T
      · obtain ⟨k, _, h⟩ := (mem_strideLoop hT t u).mp hu
        exact h
      · rw [strideLoop.eq_def, dif_neg (by omega)] at hu
        cases hu
    split at hi
    · next hv =>
      rw [mem_cellRun hg (hf.first u hun).1 (hf.first u hun).2] at hi
      exact ⟨hi.1, by rw [hi.2]; exact hv, u, hu, hun, hi.2.symm⟩
    · cases hi
  · rintro ⟨h1, h2, u, hu, hun, e⟩
    refine ⟨u, hu, ?_⟩
    rw [e, if_pos h2, mem_cellRun hg (hf.first u hun).1 (hf.first u hun).2]
    exact ⟨h1, e.symm⟩

theorem strideLoop_lt {T N t u : ℕ} (h : u ∈ strideLoop T N t) : u < N := by
  by_cases hT : 0 < T
  · obtain ⟨k, _, h⟩ := (mem_strideLoop hT t u).mp h
    exact h
  · rw [strideLoop.eq_def, dif_neg (by omega)] at h
    cases h

theorem nodup_pdProg (hg : Grouped N keys) (hf : FirstsOf N keys numKeys firsts) (T c t : ℕ) :
    (pdProg N keys nc c firsts numKeys T t).Nodup := by
  unfold pdProg
  rw [List.nodup_flatMap]
  constructor
  · intro u hu
    split
    · exact nodup_cellRun N keys _
    · exact List.nodup_nil
  · refine List.Pairwise.imp_of_mem ?_ (nodup_strideLoop t)
    intro u u' hu hu' hne
    simp only [Function.onFun]
    rw [List.disjoint_left]
    intro i hi hi'
    have hun := strideLoop_lt hu
    have hun' := strideLoop_lt hu'
    split at hi
    · split at hi'
      · rw [mem_cellRun hg (hf.first u hun).1 (hf.first u hun).2] at hi
        rw [mem_cellRun hg (hf.first u' hun').1 (hf.first u' hun').2] at hi'
        exact hne (hf.inj u u' hun hun' (by rw [← hi.2, ← hi'.2]))
      · cases hi'
    · cases hi

theorem strideLoop_thread {T N t t' u : ℕ} (ht : t < T) (ht' : t' < T) (h : u ∈ strideLoop T N t)
    (h' : u ∈ strideLoop T N t') : t = t' := by
  have hT : 0 < T := by omega
  obtain ⟨k, e, _⟩ := (mem_strideLoop hT t u).mp h
  obtain ⟨k', e', _⟩ := (mem_strideLoop hT t' u).mp h'
  have h1 : u % T = t := by rw [e, Nat.add_mul_mod_self_right, Nat.mod_eq_of_lt ht]
  have h2 : u % T = t' := by rw [e', Nat.add_mul_mod_self_right, Nat.mod_eq_of_lt ht']
  omega

theorem mem_strideLoop_mod {T N u : ℕ} (hT : 0 < T) (hu : u < N) : u ∈ strideLoop T N (u % T) := by
  rw [mem_strideLoop hT]
  refine ⟨u / T, ?_, hu⟩
  rw [Nat.mul_comm]
  exact (Nat.mod_add_div u T).symm

/-- What holds between calls; `P` are the points already tested. -/
structure PdDone (N : ℕ) (nb : ℕ → List ℕ) (P : ℕ → Prop) (m : PdMem) : Prop where
  sub : ∀ i, m.used i = true → i < N ∧ P i
  indep : ∀ i j, m.used i = true → m.used j = true → j ∈ nb i → i = j
  cover : ∀ i, P i → m.used i = true ∨ ∃ n ∈ nb i, m.used n = true
  count : m.count = ((Finset.range N).filter (fun i => m.used i = true)).card

theorem pdKernel_spec {nb : ℕ → List ℕ} {T c : ℕ} (hT : 0 < T) (hg : Grouped N keys)
    (hf : FirstsOf N keys numKeys firsts)
    (hsym : ∀ i j, i < N → j < N → j ∈ nb i → i ∈ nb j)
    (hcell : ∀ i j, i < N → j < N → pdValid nc c (keys i) = true → pdValid nc c (keys j) = true →
      keys i ≠ keys j → i ∉ nb j)
    (P : ℕ → Prop) (hP : ∀ i, P i → pdValid nc c (keys i) = false) (m m' : PdMem)
    (hm : PdDone N nb P m) (h : PdKernel N keys nc nb firsts numKeys T c m m') :
    PdDone N nb (fun i => P i ∨ i < N ∧ pdValid nc c (keys i) = true) m' := by
  obtain ⟨ls, hs, hh⟩ := h
  let prog : Fin T → List ℕ := fun t => pdProg N keys nc c firsts numKeys T t
  have hmem : ∀ t i, i ∈ prog t → i < N ∧ pdValid nc c (keys i) = true := by
    intro t i hi
    obtain ⟨h1, h2, _⟩ := (mem_pdProg hg hf T c t i).mp hi
    exact ⟨h1, h2⟩
  have hsep : ∀ t t', t ≠ t' → ∀ i ∈ prog t, ∀ j ∈ prog t', i ≠ j ∧ i ∉ nb j := by
    intro t t' htt i hi j hj
    obtain ⟨h1, h2, u, hu, hun, e⟩ := (mem_pdProg hg hf T c t i).mp hi
    obtain ⟨h1', h2', u', hu', hun', e'⟩ := (mem_pdProg hg hf T c t' j).mp hj
    have hk : keys i ≠ keys j := by
      intro hk
      have : u = u' := hf.inj u u' hun hun' (by rw [e, e', hk])
      subst this
      exact htt (Fin.ext (strideLoop_thread t.isLt t'.isLt hu hu'))
    exact ⟨fun e => hk (by rw [e]), hcell i j h1 h1' h2 h2' hk⟩
  have hinv : PdInv N nb (fun i => P i ∨ i < N ∧ pdValid nc c (keys i) = true) prog (m', ls) := by
    refine hs.invariant _ ?_ (fun s ls t s' l' hi hst =>
      pdInv_step (fun t i hi => (hmem t i hi).1) hsym hsep s ls t s' l' hi hst)
    refine ⟨fun i hi => (hm.sub i hi).1, hm.indep, ?_, ?_, ?_, ?_, ?_, ?_, ?_, ?_⟩
    · intro i hi
      have hcase : P i ∨ i < N ∧ pdValid nc c (keys i) = true := by
        rcases hi with h | ⟨t, h⟩
        · exact h
        · exact Or.inr (hmem t i h)
      rcases hcase with h | ⟨h1, h2⟩
      · rcases hm.cover i h with h | h
        · exact Or.inl h
        · exact Or.inr (Or.inl h)
      · obtain ⟨u, hu, e⟩ := hf.surj i h1
        refine Or.inr (Or.inr ⟨⟨u % T, Nat.mod_lt _ hT⟩, Or.inl ?_⟩)
        exact (mem_pdProg hg hf T c _ i).mpr ⟨h1, h2, u, mem_strideLoop_mod hT hu, hu, e⟩
    · intro t i hi
      rcases hi with hi | hi
      · refine ⟨hi, ?_⟩
        by_contra hu
        have hu' : m.used i = true := by simpa using hu
        have h1 := hP i (hm.sub i hu').2
        rw [(hmem t i hi).2] at h1
        cases h1
      · cases hi
    · intro t
      exact ⟨nodup_pdProg hg hf T c t, fun i hi => by cases hi⟩
    · intro t i rest hi; cases hi
    · intro t i rest hi; cases hi
    · intro t i rest v hi; cases hi
    · intro t i hi; cases hi
    · rw [hm.count]
      simp [PdThread.pend]
  have hl : ∀ t, (ls t).cur = .idle ∧ (ls t).todo = [] := by
    intro t
    have := hh t
    simp only [pdStep] at this
    split at this
    · cases this
    · cases this
    · cases this
    · cases this
    · next hc =>
      split at this
      · cases this
      · next h2 => exact ⟨hc, h2⟩
  refine ⟨?_, hinv.indep, ?_, ?_⟩
  · intro i hi
    refine ⟨hinv.bound i hi, ?_⟩
    -- a used point is old or was tested in this call
    have key : ∀ i, m'.used i = true → m.used i = true ∨ ∃ t, i ∈ prog t := by
      refine hs.invariant (fun c => (∀ i, c.1.used i = true → m.used i = true ∨ ∃ t, i ∈ prog t) ∧
        ∀ t i, i ∈ (c.2 t).todo ∨ (c.2 t).cur.pt = some i → i ∈ prog t) ?_ ?_ |>.1
      · exact ⟨fun i hi => Or.inl hi, fun t i hi => by
          rcases hi with hi | hi
          · exact hi
          · cases hi⟩
      · rintro s l t s' l' ⟨k1, k2⟩ hst
        simp only at k1 k2
        have hsub : (∀ i, s'.used i = true → s.used i = true ∨ (l t).cur.pt = some i) ∧
            ∀ i, i ∈ l'.todo ∨ l'.cur.pt = some i → i ∈ (l t).todo ∨ (l t).cur.pt = some i := by
          unfold pdStep at hst
          split at hst
          · next i hc =>
            cases hst
            constructor
            · intro j hj
              by_cases hji : j = i
              · subst hji; exact Or.inr (by rw [hc]; rfl)
              · simp only at hj
                rw [Function.update_of_ne hji] at hj
                exact Or.inl hj
            · intro j hj
              rcases hj with hj | hj
              · exact Or.inl hj
              · cases hj
          · next i n rest v hc =>
            cases hst
            refine ⟨fun j hj => Or.inl hj, fun j hj => ?_⟩
            rw [hc]; exact hj
          · next i hc =>
            cases hst
            refine ⟨fun j hj => Or.inl hj, fun j hj => ?_⟩
            rw [hc]; exact hj
          · next i hc =>
            cases hst
            refine ⟨fun j hj => Or.inl hj, fun j hj => ?_⟩
            rcases hj with hj | hj
            · exact Or.inl hj
            · cases hj
          · next hc =>
            split at hst
            · next i todo htd =>
              cases hst
              refine ⟨fun j hj => Or.inl hj, fun j hj => ?_⟩
              rw [htd]
              rcases hj with hj | hj
              · exact Or.inl (List.mem_cons_of_mem _ hj)
              · rw [← Option.some.inj hj]; exact Or.inl List.mem_cons_self
            · cases hst
        constructor
        · intro i hi
          rcases hsub.1 i hi with h | h
          · exact k1 i h
          · exact Or.inr ⟨t, k2 t i (Or.inr h)⟩
        · intro x i hi
          simp only at hi
          by_cases hx : x = t
          · subst hx
            rw [Function.update_self] at hi
            exact k2 x i (hsub.2 i hi)
          · rw [Function.update_of_ne hx] at hi
            exact k2 x i hi
    rcases key i hi with h | ⟨t, h⟩
    · exact Or.inl (hm.sub i h).2
    · exact Or.inr (hmem t i h)
  · intro i hi
    rcases hinv.cover i (Or.inl hi) with h | h | ⟨t, h⟩
    · exact Or.inl h
    · exact Or.inr h
    · rw [(hl t).1, (hl t).2] at h
      rcases h with h | h
      · cases h
      · cases h
  · rw [hinv.count, Finset.sum_eq_zero, Nat.add_zero]
    intro t _
    unfold PdThread.pend
    rw [(hl t).1]

theorem pdCalls_spec {nb : ℕ → List ℕ} {T : ℕ} (hT : 0 < T) (hg : Grouped N keys)
    (hf : FirstsOf N keys numKeys firsts)
    (hsym : ∀ i j, i < N → j < N → j ∈ nb i → i ∈ nb j)
    (hcell : ∀ c, ∀ i j, i < N → j < N → pdValid nc c (keys i) = true → pdValid nc c (keys j) = true →
      keys i ≠ keys j → i ∉ nb j) (c : ℕ) (hc : c ≤ 2 ^ D) (m : PdMem)
    (h : PdCalls N keys nc nb firsts numKeys T c m) :
    PdDone N nb (fun i => i < N ∧ ∃ c' < c, pdValid nc c' (keys i) = true) m := by
  induction h with
  | zero =>
    refine ⟨fun i hi => ?_, fun i j hi => ?_, fun i hi => ?_, by simp⟩
    · cases hi
    · cases hi
    · obtain ⟨_, c', h, _⟩ := hi
      omega
  | @succ c m m' h hk ih =>
    have hd := pdKernel_spec hT hg hf hsym (hcell c) _ (by
      rintro i ⟨_, c', hc', hv⟩
      by_contra hne
      have := pdValid_inj nc (keys i) (show c' < 2 ^ D by omega) (show c < 2 ^ D by omega) hv (by simpa using hne)
      omega) m m' (ih (by omega)) hk
    refine ⟨fun i hi => ?_, hd.indep, fun i hi => ?_, hd.count⟩
    · obtain ⟨h1, h2⟩ := hd.sub i hi
      refine ⟨h1, h1, ?_⟩
      rcases h2 with ⟨_, c', hc', hv⟩ | ⟨_, hv⟩
      · exact ⟨c', by omega, hv⟩
      · exact ⟨c, by omega, hv⟩
    · obtain ⟨h1, c', hc', hv⟩ := hi
      refine hd.cover i ?_
      by_cases e : c' = c
      · subst e; exact Or.inr ⟨h1, hv⟩
      · exact Or.inl ⟨h1, c', by omega, hv⟩

theorem exists_pdCalls (nb : ℕ → List ℕ) (T c : ℕ) :
    ∃ m, PdCalls N keys nc nb firsts numKeys T c m := by
  induction c with
  | zero => exact ⟨_, .zero⟩
  | succ c ih =>
    obtain ⟨m, hm⟩ := ih
    -- weights: every action makes the remaining work of its thread smaller
    let w : ℕ → ℕ := fun i => (nb i).length + 3
    let μ : PdThread → ℕ := fun l => (l.todo.map w).sum +
      match l.cur with
      | .idle => 0
      | .scan _ rest _ => rest.length + 2
      | .mark _ => 1
    obtain ⟨⟨m', ls⟩, h1, h2⟩ := Steps.exists_halted (T := T) (pdStep nb) μ (by
      intro s l s' l' h
      obtain ⟨todo, cur⟩ := l
      simp only [μ, w]
      unfold pdStep at h
      split at h
      · next i hc => simp only at hc; subst hc; cases h; simp
      · next i n rest v hc => simp only at hc; subst hc; cases h; simp
      · next i hc => simp only at hc; subst hc; cases h; simp
      · next i hc => simp only at hc; subst hc; cases h; simp
      · next hc =>
        simp only at hc; subst hc
        split at h
        · next i td htd =>
          simp only at htd; subst htd
          cases h
          simp only [List.map_cons, List.sum_cons]
          omega
        · cases h) (m, fun t => ⟨pdProg N keys nc c firsts numKeys T t, .idle⟩)
    exact ⟨m', .succ hm ⟨ls, h1, h2⟩⟩

end

/-! ### averages -/

section
variable {K : Type*} [Field K] {D N : ℕ} {keys : ℕ → ℤ}

theorem avg_out {nc : Fin D → ℤ} {pts : ℕ → Fin D → K} {firsts : ℕ → ℕ} {n T : ℕ} (hT : 0 < T)
    (tr : List (ℕ × ((Fin D → K) × ℤ)))
    (h : Interleave (strideThreads T n (avgBody N keys nc pts firsts)) tr) (u : ℕ) (hu : u < n) :
    runWrites (fun _ => (fun _ => 0, 0)) tr u =
      (fun d => ((cellRun N keys (firsts u)).map (fun j => pts j d)).sum /
        ((cellRun N keys (firsts u)).length : K), (keys (firsts u)).tdiv (cuTotal nc)) := by
  have hp := strideThreads_perm hT _ h
  refine runWrites_mem _ _ _ _ ?_ ?_
  · rw [hp.mem_iff, List.mem_flatMap]
    exact ⟨u, List.mem_range.mpr hu, List.mem_singleton.mpr rfl⟩
  · intro w hw e
    rw [hp.mem_iff, List.mem_flatMap] at hw
    obtain ⟨u', _, hw⟩ := hw
    rw [avgBody, List.mem_singleton] at hw
    subst hw
    simp only at e
    subst e
    rfl

end

end PC
