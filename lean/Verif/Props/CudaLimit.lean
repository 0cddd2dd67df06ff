import Verif.CudaLimitLemmas
import Verif.Props.CudaStore

/-!
# Properties of the neighbour search with a limit (C59, C82)
-/

set_option linter.unusedVariables false
set_option linter.unusedSectionVars false

namespace PC

/-- The decisions drawn from seeds below `N`, for samples with `num s` neighbours. -/
def FromSeeds (N m : ℕ) (num : ℕ → ℕ) (x : LimItem) : Prop :=
  ∃ u1 u2, u1 < N ∧ u2 < N ∧ x = LimItem.drawn m (num x.sample) x.pt x.sample u1 u2

theorem fromSeeds_exists (N : ℕ) (hN : 0 < N) (m : ℕ) (num : ℕ → ℕ) (p s : ℕ) :
    ∃ x, FromSeeds N m num x ∧ x.pair = (p, s) :=
  ⟨LimItem.drawn m (num s) p s 0 0, ⟨0, 0, hN, hN, rfl⟩, rfl⟩

/-- Number of positions found for sample `s` in one pass. -/
def passNum (R : ℕ) (rg : ℕ → ℕ × ℕ) (hit : ℕ → ℕ → Bool) (s : ℕ) : ℕ :=
  ∑ r ∈ Finset.range R,
    ((Finset.Ico (rg (s * R + r)).1 (rg (s * R + r)).2).filter (fun i => hit s i)).card

theorem passNum_eq (R : ℕ) (rg : ℕ → ℕ × ℕ) (hit : ℕ → ℕ → Bool) (s : ℕ) :
    passNum R rg hit s = (passFinds R rg hit s).length := by
  have := allFinds_length R [rg] hit s
  rw [List.map_singleton, List.sum_singleton] at this
  rw [passNum, ← this, allFinds, List.flatMap_singleton]

theorem allFinds_length' (R : ℕ) (rgs : List (ℕ → ℕ × ℕ)) (hit : ℕ → ℕ → Bool) (s : ℕ) :
    (allFinds R rgs hit s).length = (rgs.map (fun rg => passNum R rg hit s)).sum :=
  allFinds_length R rgs hit s

theorem storeThreads_pos {S R Wn : ℕ} (hS : 0 < S) (hR : 0 < R) (hWn : 0 < Wn) :
    0 < storeThreads S R 64 Wn := by
  unfold storeThreads launchBlocks
  have hM : 0 < execBlocks (findIters S R) 64 := by
    rw [lt_execBlocks (by norm_num)]
    unfold findIters threadsPerRange
    rw [Nat.zero_mul]
    positivity
  split <;> omega

theorem limRun_spec (m : ℕ) (ok : LimItem → Prop) (S R Wc Ws Wn : ℕ) (hWc : 0 < Wc) (hWs : 0 < Ws)
    (hWn : 0 < Wn) (hR : 0 < R) (hS : 0 < S) (hone : S ≤ 512 + Ws * 64) (rgs : List (ℕ → ℕ × ℕ))
    (hit : ℕ → ℕ → Bool) (total : ℕ) (res : LimMem) (h : LimRun m ok S R Wc Ws Wn rgs hit total res) :
    total = ∑ x ∈ Finset.range S, min m (rgs.map (fun rg => passNum R rg hit x)).sum ∧
    ∃ start al rp, (∀ s < S, start s = ∑ x ∈ Finset.range s,
        min m (rgs.map (fun rg => passNum R rg hit x)).sum) ∧
      LimDone ok start (fun s => if s < S then (rgs.map (fun rg => min m (passNum R rg hit s))).sum else 0)
        [] (rgs.flatMap (passPairs S R hit) : List (ℕ × ℕ)) al rp res ∧
      ∀ r ∈ res.reads, r.2 ≤ res.cnt r.1 := by
  obtain ⟨cnt, start, out, h1, h2, h3, h4⟩ := h
  have hcnt : ∀ s < S, cnt s = (rgs.map (fun rg => passNum R rg hit s)).sum := by
    intro s hs
    rw [countPasses_spec (by norm_num) hWc rgs hit _ _ h1 s hs, Nat.zero_add, allFinds_length']
  obtain ⟨e1, e2⟩ := C57_scan_partial Ws S hWs hS hone _ out _ h2
  have htot : total = ∑ x ∈ Finset.range S, min m (rgs.map (fun rg => passNum R rg hit x)).sum := by
    rw [← Nat.cast_sum] at e2
    rw [Int.ofNat_inj.mp e2]
    refine Finset.sum_congr rfl (fun x hx => ?_)
    rw [elemWiseMin, hcnt x (Finset.mem_range.mp hx)]
  obtain ⟨⟨al, rp, hd⟩, _⟩ := limPasses_spec (storeThreads_pos hS hR hWn) hit rgs _ res h4
  refine ⟨htot, start, al, rp, ?_, ?_, limPasses_reads hit rgs _ res h4 (by intro r hr; cases hr)⟩
  · intro s hs
    have := h3 s hs
    rw [e1 s hs, ← Nat.cast_sum] at this
    rw [Int.ofNat_inj.mp this]
    refine Finset.sum_congr rfl (fun x hx => ?_)
    rw [elemWiseMin, hcnt x (by have := Finset.mem_range.mp hx; omega)]
  · simp only [passNum_eq]
    exact hd

theorem limRun_intro (m : ℕ) (ok : LimItem → Prop) (S R Wc Ws Wn : ℕ) (hWc : 0 < Wc) (hWs : 0 < Ws)
    (hS : 0 < S) (hone : S ≤ 512 + Ws * 64) (rgs : List (ℕ → ℕ × ℕ))
    (hit : ℕ → ℕ → Bool) (start : ℕ → ℕ) (res : LimMem)
    (hst : ∀ s < S, start s = ∑ x ∈ Finset.range s, min m (rgs.map (fun rg => passNum R rg hit x)).sum)
    (h : LimPasses m ok S R (storeThreads S R 64 Wn) hit rgs ⟨fun _ => 0, start, [], []⟩ res) :
    LimRun m ok S R Wc Ws Wn rgs hit
      (∑ x ∈ Finset.range S, min m (rgs.map (fun rg => passNum R rg hit x)).sum) res := by
  obtain ⟨cnt, h1⟩ := exists_countPasses S R 64 Wc hit rgs (fun _ => 0)
  obtain ⟨out, tot, h2⟩ := C57_run_exists Ws S (fun i => (elemWiseMin m cnt i : ℤ))
  obtain ⟨e1, e2⟩ := C57_scan_partial Ws S hWs hS hone _ out tot h2
  have hcnt : ∀ s < S, cnt s = (rgs.map (fun rg => passNum R rg hit s)).sum := by
    intro s hs
    rw [countPasses_spec (by norm_num) hWc rgs hit _ _ h1 s hs, Nat.zero_add, allFinds_length']
  have hsum : ∀ s ≤ S, ∑ x ∈ Finset.range s, min m (rgs.map (fun rg => passNum R rg hit x)).sum =
      ∑ x ∈ Finset.range s, elemWiseMin m cnt x := by
    intro s hs
    refine Finset.sum_congr rfl (fun x hx => ?_)
    rw [elemWiseMin, hcnt x (by have := Finset.mem_range.mp hx; omega)]
  refine ⟨cnt, start, out, h1, ?_, ?_, h⟩
  · rw [hsum S le_rfl]
    have : ((∑ x ∈ Finset.range S, elemWiseMin m cnt x : ℕ) : ℤ) = tot := by rw [e2]; push_cast; rfl
    rw [this]; exact h2
  · intro s hs
    rw [hst s hs, hsum s (by omega), e1 s hs]; push_cast; rfl

/-- The op has a run for every choice of decisions. -/
theorem limRun_exists (m : ℕ) (ok : LimItem → Prop) (hok : ∀ p s, ∃ x, ok x ∧ x.pair = (p, s))
    (S R Wc Ws Wn : ℕ) (hWc : 0 < Wc) (hWs : 0 < Ws)
    (hS : 0 < S) (hone : S ≤ 512 + Ws * 64) (rgs : List (ℕ → ℕ × ℕ)) (hit : ℕ → ℕ → Bool) :
    ∃ total res, LimRun m ok S R Wc Ws Wn rgs hit total res := by
  have hk : ∀ (T : ℕ) (rg : ℕ → ℕ × ℕ) (mem : LimMem), ∃ mem', LimKernel m ok S R T rg hit mem mem' := by
    intro T rg mem
    choose f hf1 hf2 using hok
    obtain ⟨⟨m', ls⟩, h1, h2⟩ := Steps.exists_halted (T := T) (limStep m)
      (fun l => 3 * l.todo.length + (match l.pend with
        | .none => 0 | .write _ _ => 1 | .inc _ => 2 | .look _ => 2)) (by
        intro s l s' l' h
        unfold limStep at h
        split at h
        · next hp => cases h; simp [hp]
        · next hp => cases h; simp [hp]
        · next hp => cases h; simp [hp]
        · next hp =>
          split at h
          · next ht =>
            cases h
            simp only [hp, ht, List.length_cons]
            split
            all_goals omega
          · cases h)
      ({ mem with aux := fun _ => 0 }, fun t => ⟨(storeProg S R T rg hit t).map (fun p => f p.1 p.2), .none⟩)
    refine ⟨m', fun t => (storeProg S R T rg hit t).map (fun p => f p.1 p.2), ls, ?_, ?_, h1, h2⟩
    · intro t
      rw [List.map_map]
      conv_rhs => rw [← List.map_id (storeProg S R T rg hit t)]
      exact List.map_congr_left (fun p _ => hf2 p.1 p.2)
    · intro t x hx
      obtain ⟨p, _, rfl⟩ := List.mem_map.mp hx
      exact hf1 p.1 p.2
  have hp : ∀ (T : ℕ) (l : List (ℕ → ℕ × ℕ)) (mem : LimMem), ∃ mem', LimPasses m ok S R T hit l mem mem' := by
    intro T l
    induction l with
    | nil => exact fun mem => ⟨mem, .nil mem⟩
    | cons rg l ih =>
      intro mem
      obtain ⟨m1, h1⟩ := hk T rg mem
      obtain ⟨m2, h2⟩ := ih m1
      exact ⟨m2, .cons h1 h2⟩
  obtain ⟨res, h⟩ := hp (storeThreads S R 64 Wn) rgs ⟨fun _ => 0, fun s => ∑ x ∈ Finset.range s,
    min m (rgs.map (fun rg => passNum R rg hit x)).sum, [], []⟩
  exact ⟨_, res, limRun_intro m ok S R Wc Ws Wn hWc hWs hS hone rgs hit _ res (fun _ _ => rfl) h⟩

/-- **C59, counters.** For every schedule and all random decisions: the size of
the output is the sum of `min(m, count)`, and the counter of a sample ends at
the sum over the earlier samples plus the *sum over the passes* of `min(m, found in
this pass)`. -/
theorem C59_counters (m : ℕ) (ok : LimItem → Prop) (S R Wc Ws Wn : ℕ) (hWc : 0 < Wc) (hWs : 0 < Ws)
    (hWn : 0 < Wn) (hR : 0 < R) (hS : 0 < S) (hone : S ≤ 512 + Ws * 64) (rgs : List (ℕ → ℕ × ℕ))
    (hit : ℕ → ℕ → Bool) (total : ℕ) (res : LimMem) (h : LimRun m ok S R Wc Ws Wn rgs hit total res) :
    total = ∑ x ∈ Finset.range S, min m (rgs.map (fun rg => passNum R rg hit x)).sum ∧
    ∀ s < S, res.cnt s = (∑ x ∈ Finset.range s, min m (rgs.map (fun rg => passNum R rg hit x)).sum) +
      (rgs.map (fun rg => min m (passNum R rg hit s))).sum := by
  obtain ⟨h1, start, al, rp, h2, h3, _⟩ := limRun_spec m ok S R Wc Ws Wn hWc hWs hWn hR hS hone rgs hit total res h
  refine ⟨h1, ?_⟩
  intro s hs
  rw [h3.cnt, h3.lim, if_pos hs, h2 s hs]

/-- **C59 fails from four dimensions on** (more than one pass): the auxiliary
counters are reset before each pass, so a sample may take more than `m` slots.
One sample with one point in each of two passes and limit 1. -/
theorem C59_passes_false : ¬ ∀ (m S Wc Ws Wn : ℕ), 0 < m → 0 < Wc → 0 < Ws → 0 < Wn → 0 < S →
    S ≤ 512 + Ws * 64 → ∀ (rgs : List (ℕ → ℕ × ℕ)) (hit : ℕ → ℕ → Bool) (total : ℕ) (res : LimMem),
      LimRun m (FromSeeds (2 ^ 32) m (fun s => (rgs.map (fun rg => passNum offsetsPerBlock rg hit s)).sum))
        S offsetsPerBlock Wc Ws Wn rgs hit total res →
      ∀ s < S, res.cnt s ≤ total := by
  intro h
  let rgs : List (ℕ → ℕ × ℕ) := [fun i => (0, if i = 0 then 1 else 0), fun i => (1, if i = 0 then 2 else 1)]
  let hit : ℕ → ℕ → Bool := fun _ _ => true
  obtain ⟨total, res, hr⟩ := limRun_exists 1 (FromSeeds (2 ^ 32) 1
    (fun s => (rgs.map (fun rg => passNum offsetsPerBlock rg hit s)).sum))
    (fun p s => fromSeeds_exists _ (by norm_num) 1 _ p s) 1 offsetsPerBlock 1 1 1 (by norm_num) (by norm_num)
    (by norm_num) (by norm_num) rgs hit
  have h1 := h 1 1 1 1 1 (by norm_num) (by norm_num) (by norm_num) (by norm_num) (by norm_num)
    (by norm_num) rgs hit total res hr 0 (by norm_num)
  obtain ⟨h2, h3⟩ := C59_counters 1 _ 1 offsetsPerBlock 1 1 1 (by norm_num) (by norm_num) (by norm_num)
    (by decide) (by norm_num) (by norm_num) rgs hit total res hr
  rw [h3 0 (by norm_num), h2] at h1
  revert h1
  decide +kernel

/-- Where a sample's slots begin. -/
def limLo (m R : ℕ) (rgs : List (ℕ → ℕ × ℕ)) (hit : ℕ → ℕ → Bool) (s : ℕ) : ℕ :=
  ∑ x ∈ Finset.range s, min m (rgs.map (fun rg => passNum R rg hit x)).sum

/-- Slot ownership and content, see `C59_limit_partial`. -/
theorem lim_core (m : ℕ) (ok : LimItem → Prop) (S R Wc Ws Wn : ℕ) (hWc : 0 < Wc) (hWs : 0 < Ws)
    (hWn : 0 < Wn) (hR : 0 < R) (hS : 0 < S) (hone : S ≤ 512 + Ws * 64) (rg : ℕ → ℕ × ℕ)
    (hit : ℕ → ℕ → Bool) (total : ℕ) (res : LimMem) (h : LimRun m ok S R Wc Ws Wn [rg] hit total res)
    (hnodup : ∀ s < S, (passFinds R rg hit s).Nodup)
    (b : ℕ) (hback : ∀ x, ok x → 1 ≤ x.back ∧ x.back ≤ b)
    (hreads : ∀ r ∈ res.reads, limLo m R [rg] hit r.1 + b ≤ r.2) :
    (∀ s < S, res.cnt s = limLo m R [rg] hit (s + 1)) ∧ total = limLo m R [rg] hit S ∧
    (∀ w ∈ res.writes, w.2.2 < S ∧ (limLo m R [rg] hit w.2.2 : ℤ) ≤ w.1 ∧ w.1 < res.cnt w.2.2) ∧
    (∀ s < S, ∀ j : ℕ, limLo m R [rg] hit s ≤ j → j < res.cnt s → (res.out j).2 = s ∧
      hit s (res.out j).1 = true ∧ ∃ r < R, (rg (s * R + r)).1 ≤ (res.out j).1 ∧
        (res.out j).1 < (rg (s * R + r)).2) ∧
    (∀ j j' : ℕ, j < total → j' < total → res.out j = res.out j' → j = j') := by
  obtain ⟨h1, start, al, rp, h2, h3, h4⟩ := limRun_spec m ok S R Wc Ws Wn hWc hWs hWn hR hS hone [rg] hit
    total res h
  have hlo : ∀ s < S, start s = limLo m R [rg] hit s := h2
  have hnum : ∀ s, ([rg].map (fun rg => min m (passNum R rg hit s))).sum =
      min m ([rg].map (fun rg => passNum R rg hit s)).sum := by intro s; simp
  have hcnt : ∀ s < S, res.cnt s = limLo m R [rg] hit (s + 1) := by
    intro s hs
    rw [h3.cnt, h3.lim, if_pos hs, hlo s hs, limLo, limLo, Finset.sum_range_succ, hnum]
  -- everything written is a found pair of a sample
  have hmem : ∀ y ∈ (al : Multiset (ℕ × ℕ)) + rp.map Prod.snd, y.2 < S ∧ y.1 ∈ passFinds R rg hit y.2 := by
    intro y hy
    have := Multiset.mem_of_le h3.pairs hy
    rw [List.flatMap_singleton, Multiset.mem_coe, passPairs, List.mem_flatMap] at this
    obtain ⟨s, hs, hy'⟩ := this
    obtain ⟨p, hp, rfl⟩ := List.mem_map.mp hy'
    exact ⟨List.mem_range.mp hs, hp⟩
  have hsnd : (res.writes.map Prod.snd : Multiset (ℕ × ℕ)) = (al : Multiset (ℕ × ℕ)) + rp.map Prod.snd := by
    have e := congrArg (Multiset.map Prod.snd) h3.writes
    rw [Multiset.map_coe, Multiset.coe_nil, zero_add, Multiset.map_add, assignZ, Multiset.map_coe, List.map_map] at e
    have e2 : (assignSlots start al).map (Prod.snd ∘ fun w => ((w.1 : ℤ), w.2)) = al :=
      assignSlots_items start al
    rw [e2] at e
    exact e
  have hwmem : ∀ w ∈ res.writes, w.2.2 < S ∧ w.2.1 ∈ passFinds R rg hit w.2.2 := by
    intro w hw
    apply hmem
    rw [← hsnd]
    exact List.mem_map_of_mem hw
  have hownS : ∀ w ∈ res.writes, (start w.2.2 : ℤ) ≤ w.1 ∧ w.1 < res.cnt w.2.2 := by
    intro w hw
    have hw' : w ∈ (res.writes : Multiset _) := hw
    rw [h3.writes, Multiset.coe_nil, zero_add, Multiset.mem_add] at hw'
    rcases hw' with hw' | hw'
    · obtain ⟨y, hy, rfl⟩ := List.mem_map.mp
        (show w ∈ (assignSlots start al).map (fun w => ((w.1 : ℤ), w.2)) from hw')
      have := assignSlots_range start al y hy
      rw [h3.cnt]
      simp only
      omega
    · obtain ⟨v, x, c1, c2, c3⟩ := h3.repl w hw'
      have c4 := hback x c2
      have c5 := hreads _ c1
      have c6 := h4 _ c1
      have e1 : w.1 = (v : ℤ) - x.back := by rw [c3]
      have hs := (hwmem w hw).1
      rw [← hlo _ hs] at c5
      simp only at c5 c6
      omega
  -- each slot is written
  have hwr : ∀ s < S, ∀ j : ℕ, limLo m R [rg] hit s ≤ j → j < res.cnt s →
      ∃ w ∈ res.writes, w.1 = (j : ℤ) := by
    intro s hs j j1 j2
    have e := assignSlots_slots start al s
    have hj : j ∈ List.range' (start s) (al.countP (fun y => y.2 = s)) := by
      rw [List.mem_range'_1, ← h3.cnt, hlo s hs]; exact ⟨j1, j2⟩
    rw [← e, List.mem_reverse, List.mem_map] at hj
    obtain ⟨y, hy, rfl⟩ := hj
    refine ⟨((y.1 : ℤ), y.2), ?_, rfl⟩
    have : ((y.1 : ℤ), y.2) ∈ (res.writes : Multiset _) := by
      rw [h3.writes, Multiset.coe_nil, zero_add, Multiset.mem_add]
      left
      exact List.mem_map_of_mem (f := fun w : ℕ × (ℕ × ℕ) => ((w.1 : ℤ), w.2)) (List.mem_filter.mp hy).1
    exact this
  have hmono : ∀ a c, a ≤ c → limLo m R [rg] hit a ≤ limLo m R [rg] hit c := by
    intro a c hac
    exact Finset.sum_le_sum_of_subset (Finset.range_subset_range.mpr hac)
  have hval : ∀ s < S, ∀ j : ℕ, limLo m R [rg] hit s ≤ j → j < res.cnt s →
      ∃ w ∈ res.writes, w.1 = (j : ℤ) ∧ res.out j = w.2 := by
    intro s hs j j1 j2
    exact runWrites_last (fun _ => (0, 0)) res.writes (j : ℤ) (hwr s hs j j1 j2)
  have hfind : ∀ j < total, ∃ s < S, limLo m R [rg] hit s ≤ j ∧ j < res.cnt s := by
    intro j hj
    have hex : ∃ s, j < limLo m R [rg] hit (s + 1) := ⟨S - 1, by
      rw [show S - 1 + 1 = S by omega]; rw [h1] at hj; exact hj⟩
    classical
    have hs := Nat.find_spec hex
    have hmin := fun s (hs : s < Nat.find hex) => Nat.find_min hex hs
    generalize Nat.find hex = s at hs hmin
    have hsS : s < S := by
      by_contra hc
      have := hmin (S - 1) (by omega)
      rw [show S - 1 + 1 = S by omega] at this
      rw [h1] at hj
      exact this hj
    refine ⟨s, hsS, ?_, by rw [hcnt s hsS]; exact hs⟩
    rcases Nat.eq_zero_or_pos s with rfl | hp
    · simp [limLo]
    · have := hmin (s - 1) (by omega)
      rw [show s - 1 + 1 = s by omega] at this
      omega
  refine ⟨hcnt, h1, ?_, ?_, ?_⟩
  · intro w hw
    have hs := (hwmem w hw).1
    refine ⟨hs, ?_⟩
    rw [← hlo _ hs]
    exact hownS w hw
  · intro s hs j j1 j2
    obtain ⟨w, w1, w2, w3⟩ := hval s hs j j1 j2
    rw [w3]
    have a1 := hownS w w1
    have a2 := hwmem w w1
    have hws : w.2.2 = s := by
      rw [hlo _ a2.1, hcnt _ a2.1, w2] at a1
      rw [hcnt s hs] at j2
      rcases lt_trichotomy w.2.2 s with hlt | heq | hgt
      · have := hmono (w.2.2 + 1) s (by omega); omega
      · exact heq
      · have := hmono (s + 1) w.2.2 (by omega); omega
    rw [hws] at a2
    refine ⟨hws, ?_⟩
    obtain ⟨r, hr, hm⟩ := List.mem_flatMap.mp a2.2
    obtain ⟨hm1, hm2⟩ := List.mem_filter.mp hm
    rw [List.mem_range'_1] at hm1
    exact ⟨hm2, r, List.mem_range.mp hr, hm1.1, by omega⟩
  · intro j j' hj hj' e
    obtain ⟨s, hs, s1, s2⟩ := hfind j hj
    obtain ⟨s', hs', s1', s2'⟩ := hfind j' hj'
    obtain ⟨w, w1, w2, w3⟩ := hval s hs j s1 s2
    obtain ⟨w', w1', w2', w3'⟩ := hval s' hs' j' s1' s2'
    -- no pair is written twice
    have hnd : (res.writes.map Prod.snd).Nodup := by
      rw [← Multiset.coe_nodup, hsnd]
      refine Multiset.nodup_of_le h3.pairs ?_
      rw [List.flatMap_singleton, Multiset.coe_nodup, passPairs, List.nodup_flatMap]
      constructor
      · intro x hx
        refine List.Nodup.map (fun a b h => (Prod.ext_iff.mp h).1) ?_
        exact hnodup x (List.mem_range.mp hx)
      · refine (List.pairwise_lt_range (n := S)).imp ?_
        intro a c hac y hy hy'
        obtain ⟨p, _, rfl⟩ := List.mem_map.mp hy
        obtain ⟨p', _, e'⟩ := List.mem_map.mp hy'
        have := (Prod.ext_iff.mp e').2
        simp only at this
        omega
    have hw : w = w' := List.inj_on_of_nodup_map hnd w1 w1' (by rw [← w3, ← w3', e])
    rw [hw] at w2
    have := w2.symm.trans w2'
    omega

/-- **C59, slot ownership and content (one pass: two and three dimensions).**  If no
position is found in two ranges of a sample, the second random value lies between 1 and `b`
(the code draws it to replace one of the last `b` slots), and no thread reads
the counter of a sample before `b` of its slots have been given out: every write goes to a
slot of its own sample, and the slots of sample `s` finally hold
`min(m, count)` different positions found for `s`.  For every schedule. -/
theorem C59_limit_partial (m : ℕ) (ok : LimItem → Prop) (S R Wc Ws Wn : ℕ) (hWc : 0 < Wc) (hWs : 0 < Ws)
    (hWn : 0 < Wn) (hR : 0 < R) (hS : 0 < S) (hone : S ≤ 512 + Ws * 64) (rg : ℕ → ℕ × ℕ)
    (hit : ℕ → ℕ → Bool) (total : ℕ) (res : LimMem) (h : LimRun m ok S R Wc Ws Wn [rg] hit total res)
    (hdisj : ∀ s < S, ∀ r r' i, r < r' → r' < R → (rg (s * R + r)).1 ≤ i → i < (rg (s * R + r)).2 →
      (rg (s * R + r')).1 ≤ i → i < (rg (s * R + r')).2 → hit s i = false)
    (b : ℕ) (hback : ∀ x, ok x → 1 ≤ x.back ∧ x.back ≤ b)
    (hreads : ∀ r ∈ res.reads, limLo m R [rg] hit r.1 + b ≤ r.2) :
    (∀ s < S, res.cnt s = limLo m R [rg] hit (s + 1)) ∧ total = limLo m R [rg] hit S ∧
    (∀ w ∈ res.writes, w.2.2 < S ∧ (limLo m R [rg] hit w.2.2 : ℤ) ≤ w.1 ∧ w.1 < res.cnt w.2.2) ∧
    (∀ s < S, ∀ j : ℕ, limLo m R [rg] hit s ≤ j → j < res.cnt s → (res.out j).2 = s ∧
      hit s (res.out j).1 = true ∧ ∃ r < R, (rg (s * R + r)).1 ≤ (res.out j).1 ∧
        (res.out j).1 < (rg (s * R + r)).2) ∧
    (∀ j j' : ℕ, j < total → j' < total → res.out j = res.out j' → j = j') := by
  refine lim_core m ok S R Wc Ws Wn hWc hWs hWn hR hS hone rg hit total res h ?_ b hback hreads
  intro x hx
  rw [passFinds, List.nodup_flatMap]
  constructor
  · intro r _; exact List.Nodup.filter _ List.nodup_range'
  · refine (List.pairwise_lt_range (n := R)).imp_of_mem ?_
    intro a c ha hc hac i hi hi'
    have b1 := List.mem_range'_1.mp (List.mem_filter.mp hi).1
    have b2 := List.mem_range'_1.mp (List.mem_filter.mp hi').1
    have b3 := (List.mem_filter.mp hi).2
    have := hdisj x hx a c i hac (List.mem_range.mp hc) b1.1 (by omega) b2.1 (by omega)
    rw [this] at b3
    cases b3

/-- **C59 when no sample exceeds the limit** (any number of passes, every schedule):
the result is that of the search without limit. -/
theorem C59_below_limit (m : ℕ) (ok : LimItem → Prop) (S R Wc Ws Wn : ℕ) (hWc : 0 < Wc) (hWs : 0 < Ws)
    (hWn : 0 < Wn) (hR : 0 < R) (hS : 0 < S) (hone : S ≤ 512 + Ws * 64) (rgs : List (ℕ → ℕ × ℕ))
    (hit : ℕ → ℕ → Bool) (total : ℕ) (res : LimMem) (h : LimRun m ok S R Wc Ws Wn rgs hit total res)
    (num : ℕ → ℕ) (hnum : num = fun s => (rgs.map (fun rg => passNum R rg hit s)).sum)
    (hm : ∀ s < S, num s ≤ m) :
    total = ∑ x ∈ Finset.range S, num x ∧
    (∀ s < S, res.cnt s = ∑ x ∈ Finset.range (s + 1), num x) ∧
    (∀ s < S, ∀ i s', (((List.range' (res.cnt s - num s) (num s)).map (fun j => res.out (j : ℕ))).count (i, s') =
      if s' = s ∧ hit s i then (rgs.map (fun rg => ((Finset.range R).filter (fun r =>
        (rg (s * R + r)).1 ≤ i ∧ i < (rg (s * R + r)).2)).card)).sum else 0)) := by
  obtain ⟨h1, start, al, rp, h2, h3, h4⟩ := limRun_spec m ok S R Wc Ws Wn hWc hWs hWn hR hS hone rgs hit
    total res h
  have hn : ∀ s, num s = (rgs.map (fun rg => passNum R rg hit s)).sum := fun s => by rw [hnum]
  have hmin : ∀ s < S, min m (rgs.map (fun rg => passNum R rg hit s)).sum = num s := by
    intro s hs; rw [← hn]; exact min_eq_right (hm s hs)
  have htot : total = ∑ x ∈ Finset.range S, num x := by
    rw [h1]; exact Finset.sum_congr rfl (fun x hx => hmin x (Finset.mem_range.mp hx))
  have hstart : ∀ s < S, start s = ∑ x ∈ Finset.range s, num x := by
    intro s hs
    rw [h2 s hs]
    exact Finset.sum_congr rfl (fun x hx => hmin x (by have := Finset.mem_range.mp hx; omega))
  have hal : ∀ s, al.countP (fun y => y.2 = s) = if s < S then num s else 0 := by
    intro s
    rw [h3.lim]
    by_cases hs : s < S
    · rw [if_pos hs, if_pos hs, hn]
      refine congrArg List.sum (List.map_congr_left ?_)
      intro rg hrg
      refine min_eq_right (le_trans ?_ (hm s hs))
      rw [hn]
      exact List.single_le_sum (by simp) _ (List.mem_map_of_mem (f := fun rg => passNum R rg hit s) hrg)
    · rw [if_neg hs, if_neg hs]
  -- all pairs are first arrivals
  have hpairs : (rgs.flatMap (passPairs S R hit)).Perm
      ((List.range S).flatMap (fun s => (allFinds R rgs hit s).map (fun p => (p, s)))) := by
    clear * -
    induction rgs with
    | nil =>
      rw [List.flatMap_nil]
      refine List.Perm.of_eq (Eq.symm ?_)
      rw [List.flatMap_eq_nil_iff]
      intro s _; rfl
    | cons rg rgs ih =>
      rw [List.flatMap_cons]
      refine (ih.append_left _).trans ?_
      refine List.Perm.trans ?_ (List.Perm.of_eq (List.flatMap_congr (f := fun s =>
        (passFinds R rg hit s).map (fun p => (p, s)) ++ (allFinds R rgs hit s).map (fun p => (p, s))) ?_))
      · exact (List.flatMap_append_perm _ _ _)
      · intro s _
        rw [← List.map_append]; rfl
  have hpc : ∀ s, (rgs.flatMap (passPairs S R hit)).countP (fun y => y.2 = s) = if s < S then num s else 0 := by
    intro s
    rw [hpairs.countP_eq, pairs_count, hn, allFinds_length']
  obtain ⟨u, hu⟩ := Multiset.le_iff_exists_add.mp h3.pairs
  have hrest : rp.map Prod.snd + u = 0 := by
    rw [Multiset.eq_zero_iff_forall_notMem]
    intro y hy
    have e := congrArg (Multiset.countP (fun z => z.2 = y.2)) hu
    rw [add_assoc, Multiset.countP_add, Multiset.coe_countP, Multiset.coe_countP, hpc, hal] at e
    have := Multiset.countP_pos_of_mem (p := fun z : ℕ × ℕ => z.2 = y.2) hy rfl
    omega
  have hrp : rp = 0 := by
    have := (add_eq_zero.mp hrest).1
    exact Multiset.map_eq_zero.mp this
  have halp : al.Perm ((List.range S).flatMap (fun s => (allFinds R rgs hit s).map (fun p => (p, s)))) := by
    refine List.Perm.trans ?_ hpairs
    rw [add_assoc, hrest, add_zero] at hu
    exact (Multiset.coe_eq_coe.mp hu).symm
  have hw : (res.writes : Multiset _) = assignZ start al := by
    rw [h3.writes, hrp, add_zero, Multiset.coe_nil, zero_add]
  have hwp : res.writes.Perm ((assignSlots start al).map (fun w => ((w.1 : ℤ), w.2))) :=
    Multiset.coe_eq_coe.mp hw
  have hcnt : ∀ s < S, res.cnt s = ∑ x ∈ Finset.range (s + 1), num x := by
    intro s hs
    rw [h3.cnt, hal, if_pos hs, hstart s hs, Finset.sum_range_succ]
  refine ⟨htot, hcnt, ?_⟩
  intro s hs i s'
  have hlo : res.cnt s - num s = start s := by
    rw [hcnt s hs, Finset.sum_range_succ, hstart s hs]; omega
  rw [hlo]
  have hin : ∀ s, s ∈ al.map Prod.snd → s < S := by
    intro s hs
    obtain ⟨y, hy, rfl⟩ := List.mem_map.mp hs
    rw [halp.mem_iff, List.mem_flatMap] at hy
    obtain ⟨x, hx, hy⟩ := hy
    obtain ⟨p, _, rfl⟩ := List.mem_map.mp hy
    exact List.mem_range.mp hx
  have hmono : ∀ a b, a ≤ b → ∑ x ∈ Finset.range a, num x ≤ ∑ x ∈ Finset.range b, num x :=
    fun a b hab => Finset.sum_le_sum_of_subset (Finset.range_subset_range.mpr hab)
  have hnd : ((assignSlots start al).map Prod.fst).Nodup := by
    refine assignSlots_nodup start al ?_
    intro s s' hss hs'
    have hlt := hin s' hs'
    rw [hal, if_pos (by omega), hstart s (by omega), hstart s' hlt]
    have := hmono (s + 1) s' (by omega)
    rw [Finset.sum_range_succ] at this
    exact this
  have hval : ∀ w ∈ assignSlots start al, res.out (w.1 : ℕ) = w.2 := by
    intro w hw
    refine runWrites_mem _ _ _ _ (hwp.mem_iff.mpr (List.mem_map_of_mem
      (f := fun w : ℕ × (ℕ × ℕ) => ((w.1 : ℤ), w.2)) hw)) ?_
    intro w' hw' e
    obtain ⟨y, hy, rfl⟩ := List.mem_map.mp (hwp.mem_iff.mp hw')
    have := List.inj_on_of_nodup_map hnd hy hw (Int.ofNat_inj.mp e)
    rw [this]
  have hfinal : ((List.range' (start s) (num s)).map (fun j => res.out (j : ℕ))).Perm
      ((allFinds R rgs hit s).map (fun p => (p, s))) := by
    have e1 := assignSlots_slots start al s
    rw [hal, if_pos hs] at e1
    rw [← e1]
    refine (((List.reverse_perm _).map _).trans ?_)
    rw [List.map_map]
    have e2 : ((assignSlots start al).filter (fun w => w.2.2 = s)).map
        ((fun j : ℕ => res.out (j : ℕ)) ∘ Prod.fst) =
        ((assignSlots start al).filter (fun w => w.2.2 = s)).map Prod.snd := by
      apply List.map_congr_left
      intro w hw
      exact hval w (List.mem_filter.mp hw).1
    rw [e2]
    have e3 : ((assignSlots start al).filter (fun w => w.2.2 = s)).map Prod.snd =
        al.filter (fun y => y.2 = s) := by
      have := List.filter_map (f := Prod.snd) (p := fun y : ℕ × ℕ => decide (y.2 = s))
        (l := assignSlots start al)
      rw [assignSlots_items] at this
      rw [this]; rfl
    rw [e3]
    refine (halp.filter _).trans ?_
    rw [pairs_filter, if_pos hs]
  rw [hfinal.count_eq]
  exact allFinds_count R rgs hit s i s'

/-! ### the race and the seeds -/

theorem option_any {α : Type*} {p : α → Bool} {o : Option α} (h : o.any p = true) :
    ∃ c, o = some c ∧ p c = true := by
  cases o with
  | none => cases h
  | some c => exact ⟨c, rfl, h⟩

/-- Two samples, limit 1: sample 0 has the point 0, sample 1 the points 0 and 1. -/
abbrev exLimRg : ℕ → ℕ × ℕ := fun i => if i = 0 then (0, 1) else if i = 9 then (0, 2) else (0, 0)

/-- One sample with the points 0 and 1. -/
abbrev exLimRg1 : ℕ → ℕ × ℕ := fun i => if i = 0 then (0, 2) else (0, 0)

/-- The programs when all decisions are drawn from the seeds `u1` and `u2`. -/
abbrev exLimProg (S u1 u2 : ℕ) (rg : ℕ → ℕ × ℕ) (t : Fin 64) : List LimItem :=
  (storeProg S 9 64 rg (fun _ _ => true) t).map (fun p => LimItem.drawn 1
    (([rg].map (fun rg => passNum 9 rg (fun _ _ => true) p.2)).sum) p.1 p.2 u1 u2)

/-- Result of a schedule (thread numbers) from the prefix sums `0, 1`. -/
abbrev exLimRun (S u1 u2 : ℕ) (rg : ℕ → ℕ × ℕ) (sched : List (Fin 64)) :
    Option (LimMem × (Fin 64 → LimThread)) :=
  runSched (limStep 1) sched (⟨fun _ => 0, id, [], []⟩, fun t => ⟨exLimProg S u1 u2 rg t, .none⟩)

theorem exLim_run (S u1 u2 : ℕ) (hS : 0 < S) (hS2 : S ≤ 2) (N : ℕ) (hu1 : u1 < N) (hu2 : u2 < N)
    (rg : ℕ → ℕ × ℕ)
    (hst : ∀ s < S, s = ∑ x ∈ Finset.range s, min 1 ([rg].map (fun rg => passNum 9 rg (fun _ _ => true) x)).sum)
    (sched : List (Fin 64)) (c : LimMem × (Fin 64 → LimThread)) (hc : exLimRun S u1 u2 rg sched = some c)
    (hh : Halted (limStep 1) c) :
    LimRun 1 (FromSeeds N 1 (fun s => ([rg].map (fun rg => passNum offsetsPerBlock rg (fun _ _ => true) s)).sum))
      S offsetsPerBlock 1 1 1 [rg] (fun _ _ => true)
      (∑ x ∈ Finset.range S, min 1 ([rg].map (fun rg => passNum offsetsPerBlock rg (fun _ _ => true) x)).sum)
      c.1 := by
  refine limRun_intro 1 _ S _ 1 1 1 (by norm_num) (by norm_num) hS (by omega) _ _ id c.1 hst ?_
  have hT : storeThreads S offsetsPerBlock 64 1 = 64 := by
    rcases (show S = 1 ∨ S = 2 by omega) with rfl | rfl <;> decide
  rw [hT]
  refine .cons ⟨exLimProg S u1 u2 rg, c.2, ?_, ?_, ?_, hh⟩ (.nil _)
  · intro t
    rw [List.map_map]
    conv_rhs => rw [← List.map_id (storeProg S _ 64 rg _ t)]
    rfl
  · intro t x hx
    obtain ⟨p, _, rfl⟩ := List.mem_map.mp hx
    exact ⟨u1, u2, hu1, hu2, rfl⟩
  · exact runSched_steps (limStep 1) sched _ _ c (.refl _) hc

/-- What we look at in a result. -/
abbrev exLimHalted (c : LimMem × (Fin 64 → LimThread)) : Bool :=
  (List.finRange 64).all (fun t => (c.2 t).todo.isEmpty && decide ((c.2 t).pend = .none))

theorem exLimHalted_halted (c : LimMem × (Fin 64 → LimThread)) (h : exLimHalted c = true) :
    Halted (limStep 1) c := by
  intro t
  have := List.all_eq_true.mp h t (List.mem_finRange t)
  rw [Bool.and_eq_true, decide_eq_true_eq, List.isEmpty_iff] at this
  unfold limStep
  rw [this.2, this.1]

/-- **C59 fails because of a race** (any number of dimensions, ordinary seeds): a
thread that finds the limit reached may read the counter before the thread
that took the slot has incremented it; it then overwrites the last slot of the
*previous* sample. -/
theorem C59_race_false : ¬ ∀ (m S Wc Ws Wn : ℕ), 0 < m → 0 < Wc → 0 < Ws → 0 < Wn → 0 < S →
    S ≤ 512 + Ws * 64 → ∀ (rg : ℕ → ℕ × ℕ) (hit : ℕ → ℕ → Bool) (total : ℕ) (res : LimMem),
      LimRun m (FromSeeds (2 ^ 32 - 128) m
        (fun s => ([rg].map (fun rg => passNum offsetsPerBlock rg hit s)).sum))
        S offsetsPerBlock Wc Ws Wn [rg] hit total res →
      ∀ s < S, ∀ j : ℕ, limLo m offsetsPerBlock [rg] hit s ≤ j → j < res.cnt s → (res.out j).2 = s := by
  intro h
  have key : ∃ c, exLimRun 2 0 0 exLimRg [0, 0, 0, 16, 17, 17, 17, 16, 16] = some c ∧ exLimHalted c = true ∧
      c.1.cnt 0 = 1 ∧ (c.1.out 0).2 = 1 := by
    have : (exLimRun 2 0 0 exLimRg [0, 0, 0, 16, 17, 17, 17, 16, 16]).any (fun c => exLimHalted c &&
      decide (c.1.cnt 0 = 1) && decide ((c.1.out 0).2 = 1)) = true := by decide +kernel
    obtain ⟨c, h1, h2⟩ := option_any this
    rw [Bool.and_eq_true, Bool.and_eq_true, decide_eq_true_eq, decide_eq_true_eq] at h2
    exact ⟨c, h1, h2.1.1, h2.1.2, h2.2⟩
  obtain ⟨c, h1, h2, h3, h4⟩ := key
  have hr := exLim_run 2 0 0 (by norm_num) le_rfl (2 ^ 32 - 128) (by norm_num) (by norm_num) exLimRg
    (by decide +kernel) _ c h1 (exLimHalted_halted c h2)
  have := h 1 2 1 1 1 (by norm_num) (by norm_num) (by norm_num) (by norm_num) (by norm_num) (by norm_num)
    exLimRg _ _ c.1 hr 0 (by norm_num) 0 (by simp [limLo]) (by rw [h3]; norm_num)
  rw [Nat.cast_zero, h4] at this
  exact absurd this (by norm_num)

/-- **C59 fails for rare seeds even without a race**: for the last 128 of the
`2^32` seeds the offset is `m + 1`, so the slot before the first slot of the sample is
written (address -1 for the first sample). -/
theorem C59_seed_false : ¬ ∀ (m S Wc Ws Wn : ℕ), 0 < m → 0 < Wc → 0 < Ws → 0 < Wn → 0 < S →
    S ≤ 512 + Ws * 64 → ∀ (rg : ℕ → ℕ × ℕ) (hit : ℕ → ℕ → Bool) (total : ℕ) (res : LimMem),
      LimRun m (FromSeeds (2 ^ 32) m
        (fun s => ([rg].map (fun rg => passNum offsetsPerBlock rg hit s)).sum))
        S offsetsPerBlock Wc Ws Wn [rg] hit total res →
      (∀ r ∈ res.reads, r.2 = limLo m offsetsPerBlock [rg] hit r.1 + m) →
      ∀ w ∈ res.writes, 0 ≤ w.1 := by
  intro h
  have key : ∃ c, exLimRun 1 0 4294967295 exLimRg1 [0, 0, 0, 1, 1, 1] = some c ∧ exLimHalted c = true ∧
      c.1.reads = [(0, 1)] ∧ c.1.writes = [(0, (0, 0)), (-1, (1, 0))] := by
    have : (exLimRun 1 0 4294967295 exLimRg1 [0, 0, 0, 1, 1, 1]).any (fun c => exLimHalted c &&
      decide (c.1.reads = [(0, 1)]) && decide (c.1.writes = [(0, (0, 0)), (-1, (1, 0))])) = true := by
      decide +kernel
    obtain ⟨c, h1, h2⟩ := option_any this
    rw [Bool.and_eq_true, Bool.and_eq_true, decide_eq_true_eq, decide_eq_true_eq] at h2
    exact ⟨c, h1, h2.1.1, h2.1.2, h2.2⟩
  obtain ⟨c, h1, h2, h3, h4⟩ := key
  have hr := exLim_run 1 0 4294967295 (by norm_num) (by norm_num) (2 ^ 32) (by norm_num) (by norm_num) exLimRg1
    (by decide +kernel) _ c h1 (exLimHalted_halted c h2)
  have := h 1 1 1 1 1 (by norm_num) (by norm_num) (by norm_num) (by norm_num) (by norm_num) (by norm_num)
    exLimRg1 _ _ c.1 hr (by
      rw [h3]; intro r hr; rw [List.mem_singleton.mp hr]; simp [limLo]) (-1, (1, 0)) (by rw [h4]; simp)
  exact absurd this (by norm_num)

/-- A case of the hypotheses of `C59_limit_partial` with a replacement: the two
samples above in another order of the threads; `b = 1`. -/
example : ∃ total res, LimRun 1 (FromSeeds (2 ^ 32 - 128) 1
      (fun s => ([exLimRg].map (fun rg => passNum offsetsPerBlock rg (fun _ _ => true) s)).sum))
      2 offsetsPerBlock 1 1 1 [exLimRg] (fun _ _ => true) total res ∧
    (∀ r ∈ res.reads, limLo 1 offsetsPerBlock [exLimRg] (fun _ _ => true) r.1 + 1 ≤ r.2) ∧
    res.reads = [(1, 2)] ∧ res.writes = [(0, (0, 0)), (1, (0, 1)), (1, (1, 1))] := by
  have key : ∃ c, exLimRun 2 0 0 exLimRg [0, 0, 0, 16, 17, 16, 17, 16, 17] = some c ∧ exLimHalted c = true ∧
      c.1.reads = [(1, 2)] ∧ c.1.writes = [(0, (0, 0)), (1, (0, 1)), (1, (1, 1))] := by
    have : (exLimRun 2 0 0 exLimRg [0, 0, 0, 16, 17, 16, 17, 16, 17]).any (fun c => exLimHalted c &&
      decide (c.1.reads = [(1, 2)]) && decide (c.1.writes = [(0, (0, 0)), (1, (0, 1)), (1, (1, 1))])) = true := by
      decide +kernel
    obtain ⟨c, h1, h2⟩ := option_any this
    rw [Bool.and_eq_true, Bool.and_eq_true, decide_eq_true_eq, decide_eq_true_eq] at h2
    exact ⟨c, h1, h2.1.1, h2.1.2, h2.2⟩
  obtain ⟨c, h1, h2, h3, h4⟩ := key
  refine ⟨_, c.1, exLim_run 2 0 0 (by norm_num) le_rfl (2 ^ 32 - 128) (by norm_num) (by norm_num) exLimRg
    (by decide +kernel) _ c h1 (exLimHalted_halted c h2), ?_, h3, h4⟩
  rw [h3]
  intro r hr
  rw [List.mem_singleton.mp hr]
  decide +kernel

/-! ### the random choice (C82) -/

/-- **C82, what the draws do.** For all seeds below `2^32 - 128`, every limit and
every number of neighbours above the limit: the new neighbour is always accepted and
always replaces the last slot. -/
theorem C82_always_last (m count pt sample u1 u2 : ℕ) (hm : 0 < m) (hc : m < count)
    (h1 : u1 < 2 ^ 32 - 128) (h2 : u2 < 2 ^ 32 - 128) :
    (LimItem.drawn m count pt sample u1 u2).accept = true ∧
      (LimItem.drawn m count pt sample u1 u2).back = 1 := by
  unfold LimItem.drawn seedToFloat
  rw [if_pos h1, if_pos h2]
  refine ⟨?_, by simp⟩
  rw [decide_eq_true_eq, Nat.cast_zero]
  have : (0 : ℚ) < m := by exact_mod_cast hm
  have h' : (0 : ℚ) < count := by exact_mod_cast (by omega : 0 < count)
  exact div_pos this h'

/-- **C82 is false**: some slots can not be replaced whatever the seeds are. -/
theorem C82_every_slot_false : ¬ ∀ (m count pt sample : ℕ), 0 < m → m < count → ∀ j, 1 ≤ j → j ≤ m →
    ∃ u1 u2, u1 < 2 ^ 32 ∧ u2 < 2 ^ 32 ∧ (LimItem.drawn m count pt sample u1 u2).accept = true ∧
      (LimItem.drawn m count pt sample u1 u2).back = j := by
  intro h
  obtain ⟨u1, u2, _, _, _, h4⟩ := h 2 3 0 0 (by norm_num) (by norm_num) 2 (by norm_num) le_rfl
  unfold LimItem.drawn seedToFloat at h4
  dsimp only at h4
  split at h4 <;> omega

/-- **C82, consequence for a whole run (one pass).** If the seeds are below
`2^32 - 128` and no counter is read before it is complete, each slot of a sample except its last
one is written exactly once: it keeps the neighbour that came first. -/
theorem C82_first_arrivals (m : ℕ) (S R Wc Ws Wn : ℕ) (hm : 0 < m) (hWc : 0 < Wc) (hWs : 0 < Ws)
    (hWn : 0 < Wn) (hR : 0 < R) (hS : 0 < S) (hone : S ≤ 512 + Ws * 64) (rg : ℕ → ℕ × ℕ)
    (hit : ℕ → ℕ → Bool) (total : ℕ) (res : LimMem)
    (h : LimRun m (FromSeeds (2 ^ 32 - 128) m (fun s => passNum R rg hit s)) S R Wc Ws Wn [rg] hit total res)
    (hreads : ∀ r ∈ res.reads, r.2 = limLo m R [rg] hit r.1 + m) (s : ℕ) (hs : s < S) (j : ℕ)
    (hj : limLo m R [rg] hit s ≤ j) (hj' : j + 1 < res.cnt s) :
    res.writes.countP (fun w => w.1 = (j : ℤ)) = 1 := by
  obtain ⟨h1, start, al, rp, h2, h3, h4⟩ := limRun_spec m _ S R Wc Ws Wn hWc hWs hWn hR hS hone [rg] hit
    total res h
  have hlo : ∀ s < S, start s = limLo m R [rg] hit s := h2
  have hmono : ∀ a c, a ≤ c → limLo m R [rg] hit a ≤ limLo m R [rg] hit c := by
    intro a c hac
    exact Finset.sum_le_sum_of_subset (Finset.range_subset_range.mpr hac)
  have hsucc : ∀ s, limLo m R [rg] hit (s + 1) = limLo m R [rg] hit s + min m (passNum R rg hit s) := by
    intro s; rw [limLo, limLo, Finset.sum_range_succ]; simp
  have hal : ∀ s < S, al.countP (fun y => y.2 = s) = min m (passNum R rg hit s) := by
    intro s hs; rw [h3.lim, if_pos hs]; simp
  have hcnt : ∀ s < S, res.cnt s = limLo m R [rg] hit (s + 1) := by
    intro s hs
    rw [h3.cnt, hal s hs, hlo s hs, hsucc]
  have hmem : ∀ y ∈ (al : Multiset (ℕ × ℕ)) + rp.map Prod.snd, y.2 < S := by
    intro y hy
    have := Multiset.mem_of_le h3.pairs hy
    rw [List.flatMap_singleton, Multiset.mem_coe, passPairs, List.mem_flatMap] at this
    obtain ⟨s, hs, hy'⟩ := this
    obtain ⟨p, hp, rfl⟩ := List.mem_map.mp hy'
    exact List.mem_range.mp hs
  -- replacing writes go to last slots
  have hrp : rp.countP (fun w => w.1 = (j : ℤ)) = 0 := by
    rw [Multiset.countP_eq_zero]
    intro w hw e
    obtain ⟨v, x, c1, c2, c3⟩ := h3.repl w hw
    obtain ⟨u1, u2, d1, d2, d3⟩ := c2
    have hb : x.back = 1 := by
      rw [d3]
      unfold LimItem.drawn seedToFloat
      rw [if_pos d2]
      simp
    have hw2 : w.2.2 < S := hmem _ (Multiset.mem_add.mpr (Or.inr (Multiset.mem_map_of_mem _ hw)))
    have e1 : w.1 = (v : ℤ) - x.back := by rw [c3]
    have c5 := hreads _ c1
    have c6 := h4 _ c1
    simp only at c5 c6
    rw [hcnt _ hw2, hsucc] at c6
    rw [hcnt s hs, hsucc] at hj'
    have hmm : min m (passNum R rg hit w.2.2) = m := by omega
    rcases lt_trichotomy w.2.2 s with hlt | heq | hgt
    · have := hmono (w.2.2 + 1) s (by omega)
      rw [hsucc] at this
      omega
    · rw [heq] at c5 hmm; omega
    · have := hmono (s + 1) w.2.2 (by omega)
      rw [hsucc] at this
      omega
  have e : res.writes.countP (fun w => w.1 = (j : ℤ)) =
      Multiset.countP (fun w => w.1 = (j : ℤ)) (res.writes : Multiset (ℤ × (ℕ × ℕ))) := by
    rw [Multiset.coe_countP]
  rw [e, h3.writes, Multiset.coe_nil, zero_add, Multiset.countP_add, hrp, Nat.add_zero, assignZ,
    Multiset.coe_countP, List.countP_map]
  have hnd : ((assignSlots start al).map Prod.fst).Nodup := by
    refine assignSlots_nodup start al ?_
    intro a c hac hc
    obtain ⟨y, hy, rfl⟩ := List.mem_map.mp hc
    have hlt : y.2 < S := hmem y (Multiset.mem_add.mpr (Or.inl hy))
    rw [hal a (by omega), hlo a (by omega), hlo _ hlt, ← hsucc]
    exact hmono _ _ (by omega)
  have hin : j ∈ (assignSlots start al).map Prod.fst := by
    have e := assignSlots_slots start al s
    have : j ∈ List.range' (start s) (al.countP (fun y => y.2 = s)) := by
      rw [List.mem_range'_1, ← h3.cnt, hlo s hs]; exact ⟨hj, by omega⟩
    rw [← e, List.mem_reverse, List.mem_map] at this
    obtain ⟨y, hy, rfl⟩ := this
    exact List.mem_map_of_mem (List.mem_filter.mp hy).1
  have := List.count_eq_one_of_mem hnd hin
  rw [List.count, List.countP_map] at this
  rw [← this]
  apply List.countP_congr
  intro w _
  simp

/-! ### together with the range search -/

section
variable {K : Type*} [Field K] [LinearOrder K] [IsStrictOrderedRing K] [FloorRing K] {k : ℕ}

/-- Number of points of the grid's cloud with batch id `b` and within the radii of `p`. -/
def numWithin (g : Grid (k + 2) K) (rad : Fin (k + 2) → K) (b : ℕ) (p : Fin (k + 2) → K) : ℕ :=
  (Finset.univ.filter (fun i : Fin g.c.n => g.c.batch i = b ∧
    ∑ d, ((p d - g.c.pts i d) / rad d) ^ 2 < 1)).card

/-- **C59, the whole op in two and three dimensions.** Under the conditions of
`C59_limit_partial` on the random values and counter reads: every centre gets
`min(m, n)` slots, where `n` is the number of points of its batch element within the
radii; they hold its own pairs with different such points. -/
theorem C59_find_neighbors_partial (g : Grid (k + 2) K) (hk : k ≤ 1) (tab : ℤ → ℕ × ℕ) (ht : BuiltTable g tab)
    (cen : ℕ → ℕ × (Fin (k + 2) → K)) (rad : Fin (k + 2) → K) (hr : ∀ d, 0 < rad d)
    (hle : ∀ d, rad d ≤ g.cs d) (fuel : ℕ) (hf : Nat.clog 2 g.c.n + 1 ≤ fuel)
    (m : ℕ) (ok : LimItem → Prop)
    (S Wc Ws Wn : ℕ) (hWc : 0 < Wc) (hWs : 0 < Ws) (hWn : 0 < Wn) (hS : 0 < S) (hone : S ≤ 512 + Ws * 64)
    (total : ℕ) (res : LimMem) (h : LimRun m ok S offsetsPerBlock Wc Ws Wn
      ((offsetBlocks (k + 2) 1).map (opRanges fuel g tab cen))
      (opHit g cen (fun d => (rad d)⁻¹)) total res)
    (num : ℕ → ℕ) (hnum : num = fun s => min m (numWithin g rad (cen s).1 (cen s).2))
    (b : ℕ) (hback : ∀ x, ok x → 1 ≤ x.back ∧ x.back ≤ b)
    (hreads : ∀ r ∈ res.reads, ∑ x ∈ Finset.range r.1, num x + b ≤ r.2) :
    total = ∑ x ∈ Finset.range S, num x ∧ ∀ s < S,
      res.cnt s = ∑ x ∈ Finset.range (s + 1), num x ∧
      (∀ j : ℕ, ∑ x ∈ Finset.range s, num x ≤ j → j < res.cnt s → (res.out j).2 = s ∧
        ∃ hi : (res.out j).1 < g.c.n, g.c.batch (cuPerm g ⟨(res.out j).1, hi⟩) = (cen s).1 ∧
          ∑ d, (((cen s).2 d - g.c.pts (cuPerm g ⟨(res.out j).1, hi⟩) d) / rad d) ^ 2 < 1) ∧
      (∀ j j' : ℕ, ∑ x ∈ Finset.range s, num x ≤ j → j < res.cnt s → ∑ x ∈ Finset.range s, num x ≤ j' →
        j' < res.cnt s → res.out j = res.out j' → j = j') := by
  -- one pass
  have hblk : ∃ l, offsetBlocks (k + 2) 1 = [l] := by
    have : numOffsets (k + 2) 1 / offsetsPerBlock = 1 := by
      rcases (show k = 0 ∨ k = 1 by omega) with rfl | rfl <;> decide
    exact ⟨_, by unfold offsetBlocks; rw [this]; rfl⟩
  obtain ⟨l, hl⟩ := hblk
  have hA : ∀ s, cuNeighborsOf fuel g tab (cen s).1 (cen s).2 (fun d => (rad d)⁻¹) =
      some (passFinds offsetsPerBlock (opRanges fuel g tab cen l) (opHit g cen (fun d => (rad d)⁻¹)) s) := by
    intro s
    have := allFinds_eq g tab ht cen (fun d => (rad d)⁻¹) fuel hf s
    rw [hl, List.map_singleton, allFinds, List.flatMap_singleton] at this
    exact this
  rw [hl, List.map_singleton] at h
  have hnodup : ∀ s, (passFinds offsetsPerBlock (opRanges fuel g tab cen l)
      (opHit g cen (fun d => (rad d)⁻¹)) s).Nodup := by
    intro s
    obtain ⟨l', a1, a2⟩ := C56_no_duplicates_partial g tab ht (cen s).1 (cen s).2 rad (Or.inl hk) fuel hf
    rw [hA s] at a1
    cases a1
    exact a2
  have hmem : ∀ s i, i ∈ passFinds offsetsPerBlock (opRanges fuel g tab cen l)
      (opHit g cen (fun d => (rad d)⁻¹)) s ↔ ∃ hi : i < g.c.n, g.c.batch (cuPerm g ⟨i, hi⟩) = (cen s).1 ∧
          ∑ d, (((cen s).2 d - g.c.pts (cuPerm g ⟨i, hi⟩) d) / rad d) ^ 2 < 1 := by
    intro s i
    constructor
    · intro hi
      obtain ⟨l', a1, a2⟩ := C56_sound g tab ht (cen s).1 (cen s).2 rad fuel hf
      rw [hA s] at a1
      cases a1
      exact a2 _ hi
    · rintro ⟨hi, c1, c2⟩
      obtain ⟨l', a1, a2⟩ := C56_complete g tab ht (cen s).1 (cen s).2 rad hr hle fuel hf
      rw [hA s] at a1
      cases a1
      exact a2 ⟨i, hi⟩ c1 c2
  have hlen : ∀ s, passNum offsetsPerBlock (opRanges fuel g tab cen l) (opHit g cen (fun d => (rad d)⁻¹)) s =
      numWithin g rad (cen s).1 (cen s).2 := by
    intro s
    rw [passNum_eq, ← List.toFinset_card_of_nodup (hnodup s), numWithin]
    symm
    refine Finset.card_bij (fun i _ => ((cuPerm g).symm i).val) ?_ ?_ ?_
    · intro i hi
      rw [List.mem_toFinset, hmem]
      refine ⟨((cuPerm g).symm i).isLt, ?_⟩
      simpa using hi
    · intro a _ c _ e
      exact (cuPerm g).symm.injective (Fin.ext e)
    · intro i hi
      rw [List.mem_toFinset, hmem] at hi
      obtain ⟨hi, c1⟩ := hi
      exact ⟨cuPerm g ⟨i, hi⟩, by simpa using c1, by simp⟩
  have hlo : ∀ s, limLo m offsetsPerBlock [opRanges fuel g tab cen l] (opHit g cen (fun d => (rad d)⁻¹)) s =
      ∑ x ∈ Finset.range s, num x := by
    intro s
    unfold limLo
    refine Finset.sum_congr rfl (fun x _ => ?_)
    rw [List.map_singleton, List.sum_singleton, hlen, hnum]
  obtain ⟨h1, h2, h3, h4, h5⟩ := lim_core m ok S offsetsPerBlock Wc Ws Wn hWc hWs hWn (by decide) hS hone
    (opRanges fuel g tab cen l) (opHit g cen (fun d => (rad d)⁻¹)) total res h (fun s _ => hnodup s) b hback
    (by intro r hr; rw [hlo]; exact hreads r hr)
  simp only [hlo] at h1 h2 h4
  have hmono : ∀ a c, a ≤ c → ∑ x ∈ Finset.range a, num x ≤ ∑ x ∈ Finset.range c, num x :=
    fun a c hac => Finset.sum_le_sum_of_subset (Finset.range_subset_range.mpr hac)
  refine ⟨h2, fun s hs => ⟨h1 s hs, ?_, ?_⟩⟩
  · intro j j1 j2
    obtain ⟨c1, c2, r, hr', c3, c4⟩ := h4 s hs j j1 j2
    refine ⟨c1, (hmem s _).mp ?_⟩
    rw [passFinds, List.mem_flatMap]
    exact ⟨r, List.mem_range.mpr hr', List.mem_filter.mpr ⟨by rw [List.mem_range'_1]; omega, c2⟩⟩
  · intro j j' j1 j2 j1' j2' e
    have := hmono (s + 1) S (by omega)
    rw [h1 s hs] at j2 j2'
    exact h5 j j' (by omega) (by omega) e

end

end PC
