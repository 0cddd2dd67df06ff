import Verif.CudaSearch
import Verif.CudaGridLemmas
import Verif.Props.CudaGrid

/-! Helper lemmas about the CUDA neighbour search. -/

set_option linter.unusedVariables false
set_option linter.unusedSectionVars false

namespace PC

/-! ### binary searches -/

/-- Invariant of the two searches on positions `0..m`. -/
structure SearchInv (f : ℕ → ℤ) (m : ℕ) (minKey maxKey : ℤ) (s : Search) : Prop where
  mn_le : s.mn.1 ≤ s.mn.2
  mn_hi : s.mn.2 ≤ m
  mn_x : s.mn.1 = 0 ∨ maxKey < f s.mn.1
  mn_y : s.mn.2 = m ∨ f s.mn.2 ≤ maxKey
  mx_le : s.mx.1 ≤ s.mx.2
  mx_hi : s.mx.2 ≤ m
  mx_x : s.mx.1 = 0 ∨ minKey ≤ f s.mx.1
  mx_y : s.mx.2 = m ∨ f s.mx.2 < minKey

theorem searchStep_inv (keys : ℕ → ℤ) (lo m : ℕ) (minKey maxKey : ℤ) (s : Search)
    (h : SearchInv (fun j => keys (j + lo)) m minKey maxKey s) :
    SearchInv (fun j => keys (j + lo)) m minKey maxKey (searchStep keys lo minKey maxKey s) := by
  obtain ⟨h1, h2, h3, h4, h5, h6, h7, h8⟩ := h
  unfold searchStep
  dsimp only
  constructor
  all_goals dsimp only
  · by_cases hs : s.stopMin
    · rw [if_pos hs]; exact h1
    · rw [if_neg hs]; unfold Search.stopMin at hs
      split <;> dsimp only <;> omega
  · by_cases hs : s.stopMin
    · rw [if_pos hs]; exact h2
    · rw [if_neg hs]; unfold Search.stopMin at hs
      split <;> dsimp only <;> omega
  · by_cases hs : s.stopMin
    · rw [if_pos hs]; exact h3
    · rw [if_neg hs]; unfold Search.stopMin at hs
      split
      · rename_i hk; exact Or.inr hk
      · exact h3
  · by_cases hs : s.stopMin
    · rw [if_pos hs]; exact h4
    · rw [if_neg hs]; unfold Search.stopMin at hs
      split
      · exact h4
      · rename_i hk; exact Or.inr (not_lt.mp hk)
  · by_cases hs : s.stopMax
    · rw [if_pos hs]; exact h5
    · rw [if_neg hs]; unfold Search.stopMax at hs
      split <;> dsimp only <;> omega
  · by_cases hs : s.stopMax
    · rw [if_pos hs]; exact h6
    · rw [if_neg hs]; unfold Search.stopMax at hs
      split <;> dsimp only <;> omega
  · by_cases hs : s.stopMax
    · rw [if_pos hs]; exact h7
    · rw [if_neg hs]; unfold Search.stopMax at hs
      split
      · rename_i hk; exact Or.inr hk
      · exact h7
  · by_cases hs : s.stopMax
    · rw [if_pos hs]; exact h8
    · rw [if_neg hs]; unfold Search.stopMax at hs
      split
      · exact h8
      · rename_i hk; exact Or.inr (not_le.mp hk)

theorem searchStep_width (keys : ℕ → ℤ) (lo : ℕ) (minKey maxKey : ℤ) (s : Search) :
    (searchStep keys lo minKey maxKey s).mn.2 - (searchStep keys lo minKey maxKey s).mn.1 ≤
      max 1 ((s.mn.2 - s.mn.1 + 1) / 2) ∧
    (searchStep keys lo minKey maxKey s).mx.2 - (searchStep keys lo minKey maxKey s).mx.1 ≤
      max 1 ((s.mx.2 - s.mx.1 + 1) / 2) := by
  unfold searchStep
  dsimp only
  constructor
  · by_cases hs : s.stopMin
    · rw [if_pos hs]; unfold Search.stopMin at hs; omega
    · rw [if_neg hs]; unfold Search.stopMin at hs
      split <;> dsimp only <;> omega
  · by_cases hs : s.stopMax
    · rw [if_pos hs]; unfold Search.stopMax at hs; omega
    · rw [if_neg hs]; unfold Search.stopMax at hs
      split <;> dsimp only <;> omega

theorem searchLoop_some (keys : ℕ → ℤ) (lo m : ℕ) (minKey maxKey : ℤ) (fuel w : ℕ) (s : Search)
    (h : SearchInv (fun j => keys (j + lo)) m minKey maxKey s) (hw1 : s.mn.2 - s.mn.1 ≤ w)
    (hw2 : s.mx.2 - s.mx.1 ≤ w) (hf : Nat.clog 2 w + 1 ≤ fuel) :
    ∃ s', searchLoop keys lo minKey maxKey fuel s = some s' ∧ s'.stopMin ∧ s'.stopMax ∧
      SearchInv (fun j => keys (j + lo)) m minKey maxKey s' := by
  induction fuel generalizing w s with
  | zero => omega
  | succ fuel ih =>
    rw [searchLoop]
    by_cases hs : s.stopMin ∧ s.stopMax
    · rw [if_pos hs]
      exact ⟨s, rfl, hs.1, hs.2, h⟩
    · rw [if_neg hs]
      have hw : 1 < w := by
        by_contra hw
        exact hs ⟨by unfold Search.stopMin; omega, by unfold Search.stopMax; omega⟩
      have hc : Nat.clog 2 w = Nat.clog 2 ((w + 1) / 2) + 1 := by
        rw [Nat.clog_of_two_le one_lt_two (by omega)]
        rfl
      have h2 := searchStep_width keys lo minKey maxKey s
      refine ih ((w + 1) / 2) _ (searchStep_inv keys lo m minKey maxKey s h) ?_ ?_ (by omega)
      · refine h2.1.trans ?_; omega
      · refine h2.2.trans ?_; omega

theorem search_exact (keys : ℕ → ℤ) (lo m : ℕ) (minKey maxKey : ℤ)
    (hs : ∀ i j, i ≤ j → j ≤ m → keys (j + lo) ≤ keys (i + lo)) (s : Search) (h1 : s.stopMin)
    (h2 : s.stopMax) (h : SearchInv (fun j => keys (j + lo)) m minKey maxKey s) :
    (∀ j, j ≤ m → (((searchResult keys lo minKey maxKey s).1 ≤ j + lo ∧
        j + lo < (searchResult keys lo minKey maxKey s).2) ↔
      minKey ≤ keys (j + lo) ∧ keys (j + lo) ≤ maxKey)) ∧
    (searchResult keys lo minKey maxKey s = (0, 0) ∨
      (lo ≤ (searchResult keys lo minKey maxKey s).1 ∧
       (searchResult keys lo minKey maxKey s).1 < (searchResult keys lo minKey maxKey s).2 ∧
       (searchResult keys lo minKey maxKey s).2 ≤ lo + m + 1)) := by
  obtain ⟨i1, i2, i3, i4, i5, i6, i7, i8⟩ := h
  unfold Search.stopMin at h1
  unfold Search.stopMax at h2
  -- the position found by the first search
  have hmin : (∃ a, a ≤ m ∧ (searchResult keys lo minKey maxKey s).1 = a + lo ∧
      (minKey ≤ keys (a + lo) ∧ keys (a + lo) ≤ maxKey) ∧
      ∀ j, j < a → ¬ (keys (j + lo) ≤ maxKey)) ∨
      ((searchResult keys lo minKey maxKey s).1 = 0 ∧
        ∀ j, j ≤ m → ¬ (minKey ≤ keys (j + lo) ∧ keys (j + lo) ≤ maxKey)) := by
    unfold searchResult
    dsimp only
    by_cases c1 : minKey ≤ keys (s.mn.1 + lo) ∧ keys (s.mn.1 + lo) ≤ maxKey
    · rw [if_pos c1]
      left
      refine ⟨s.mn.1, by omega, rfl, c1, ?_⟩
      rcases i3 with i3 | i3
      · intro j hj; omega
      · exact absurd c1.2 (not_le.mpr i3)
    · rw [if_neg c1]
      by_cases c2 : minKey ≤ keys (s.mn.2 + lo) ∧ keys (s.mn.2 + lo) ≤ maxKey
      · rw [if_pos c2]
        left
        refine ⟨s.mn.2, i2, rfl, c2, ?_⟩
        intro j hj
        have hx := hs s.mn.1 s.mn.2 i1 i2
        have hj' := hs j s.mn.1 (by omega) (by omega)
        intro hle
        exact c1 ⟨c2.1.trans hx, hj'.trans hle⟩
      · rw [if_neg c2]
        right
        refine ⟨rfl, ?_⟩
        rintro j hj ⟨hj1, hj2⟩
        by_cases hjx : j ≤ s.mn.1
        · rcases i3 with i3 | i3
          · have : j = s.mn.1 := by omega
            subst this
            exact c1 ⟨hj1, hj2⟩
          · have := hs j s.mn.1 hjx (by omega)
            omega
        · have hjy : s.mn.2 ≤ j := by omega
          rcases i4 with i4 | i4
          · have : j = s.mn.2 := by omega
            subst this
            exact c2 ⟨hj1, hj2⟩
          · have := hs s.mn.2 j hjy hj
            exact c2 ⟨hj1.trans this, i4⟩
  have hmax : (∃ a, a ≤ m ∧ (searchResult keys lo minKey maxKey s).2 = a + lo + 1 ∧
      (minKey ≤ keys (a + lo) ∧ keys (a + lo) ≤ maxKey) ∧
      ∀ j, a < j → j ≤ m → ¬ (minKey ≤ keys (j + lo))) ∨
      ((searchResult keys lo minKey maxKey s).2 = 0 ∧
        ∀ j, j ≤ m → ¬ (minKey ≤ keys (j + lo) ∧ keys (j + lo) ≤ maxKey)) := by
    clear hmin
    unfold searchResult
    dsimp only
    by_cases c2 : minKey ≤ keys (s.mx.2 + lo) ∧ keys (s.mx.2 + lo) ≤ maxKey
    · rw [if_pos c2]
      left
      refine ⟨s.mx.2, i6, rfl, c2, ?_⟩
      rcases i8 with i8 | i8
      · intro j hj hj'; omega
      · exact absurd c2.1 (not_le.mpr i8)
    · rw [if_neg c2]
      by_cases c1 : minKey ≤ keys (s.mx.1 + lo) ∧ keys (s.mx.1 + lo) ≤ maxKey
      · rw [if_pos c1]
        left
        refine ⟨s.mx.1, by omega, rfl, c1, ?_⟩
        intro j hj hjm
        have hx := hs s.mx.1 s.mx.2 i5 i6
        have hj' := hs s.mx.2 j (by omega) hjm
        intro hle
        exact c2 ⟨hle.trans hj', hx.trans c1.2⟩
      · rw [if_neg c1]
        right
        refine ⟨rfl, ?_⟩
        rintro j hj ⟨hj1, hj2⟩
        by_cases hjx : j ≤ s.mx.1
        · rcases i7 with i7 | i7
          · have : j = s.mx.1 := by omega
            subst this
            exact c1 ⟨hj1, hj2⟩
          · have := hs j s.mx.1 hjx (by omega)
            exact c1 ⟨i7, this.trans hj2⟩
        · have hjy : s.mx.2 ≤ j := by omega
          rcases i8 with i8 | i8
          · have : j = s.mx.2 := by omega
            subst this
            exact c2 ⟨hj1, hj2⟩
          · have := hs s.mx.2 j hjy hj
            omega
  rcases hmin with ⟨a, ha, ea, hRa, hla⟩ | ⟨e0, hno⟩
  · rcases hmax with ⟨c, hc, ec, hRc, hlc⟩ | ⟨_, hno⟩
    · constructor
      · intro j hj
        rw [ea, ec]
        constructor
        · rintro ⟨u1, u2⟩
          have k1 := hs a j (by omega) hj
          have k2 := hs j c (by omega) hc
          omega
        · rintro ⟨u1, u2⟩
          constructor
          · by_contra hlt
            exact hla j (by omega) u2
          · by_contra hlt
            exact hlc j (by omega) hj u1
      · right
        have : a ≤ c := by
          by_contra hlt
          exact hlc a (by omega) ha hRa.1
        omega
    · exact absurd hRa (hno a ha)
  · rcases hmax with ⟨c, hc, ec, hRc, hlc⟩ | ⟨e0', _⟩
    · exact absurd hRc (hno c hc)
    · constructor
      · intro j hj
        rw [e0, e0']
        constructor
        · omega
        · intro u; exact absurd u (hno j hj)
      · left
        exact Prod.ext e0 e0'

/-- Initial state. -/
theorem searchInv_init (f : ℕ → ℤ) (m : ℕ) (minKey maxKey : ℤ) :
    SearchInv f m minKey maxKey ⟨(0, m), (0, m)⟩ :=
  ⟨Nat.zero_le _, le_rfl, Or.inl rfl, Or.inl rfl, Nat.zero_le _, le_rfl, Or.inl rfl, Or.inl rfl⟩

/-! ### key bounds -/

theorem tdiv_batch {b total r : ℤ} (hb : 0 ≤ b) (hr : 0 ≤ r) (hrt : r < total) :
    (b * total + r).tdiv total = b := by
  have ht : 0 < total := lt_of_le_of_lt hr hrt
  have h0 : 0 ≤ b * total + r := by
    have := mul_nonneg hb ht.le
    omega
  rw [Int.tdiv_eq_ediv_of_nonneg h0, add_comm, Int.add_mul_ediv_right _ _ ht.ne',
    Int.ediv_eq_zero_of_lt hr hrt, zero_add]

/-- For keys of the same batch element the clamped bounds mean distance ≤ 1. -/
theorem keyBounds_iff {b total r r' : ℤ} (hb : 0 ≤ b) (hr : 0 ≤ r) (hrt : r < total)
    (hr' : 0 ≤ r') (hrt' : r' < total) :
    ((keyBounds (b * total + r) total 1).1 ≤ b * total + r' ∧
      b * total + r' ≤ (keyBounds (b * total + r) total 1).2) ↔ |r' - r| ≤ 1 := by
  unfold keyBounds
  dsimp only
  rw [tdiv_batch hb hr hrt, abs_le]
  have e1 : (if b = (b * total + r - 1).tdiv total then b * total + r - 1 else b * total) ≤
      b * total + r' ↔ -1 ≤ r' - r := by
    split
    · omega
    · rename_i h
      have : r = 0 := by
        by_contra h0
        apply h
        have := tdiv_batch (b := b) (total := total) (r := r - 1) hb (by omega) (by omega)
        rw [show b * total + r - 1 = b * total + (r - 1) by ring]
        exact this.symm
      omega
  have e2 : b * total + r' ≤ (if b = (b * total + r + 1).tdiv total then b * total + r + 1
      else b * total + total - 1) ↔ r' - r ≤ 1 := by
    split
    · omega
    · rename_i h
      have : r = total - 1 := by
        by_contra h0
        apply h
        have := tdiv_batch (b := b) (total := total) (r := r + 1) hb (by omega) (by omega)
        rw [show b * total + r + 1 = b * total + (r + 1) by ring]
        exact this.symm
      omega
  rw [e1, e2]

/-! ### ranges of a tube -/

theorem mulAddInjZ {a a' m r r' : ℤ} (hr : 0 ≤ r) (hrm : r < m) (hr' : 0 ≤ r') (hrm' : r' < m)
    (h : a * m + r = a' * m + r') : a = a' ∧ r = r' := by
  have hm : m ≠ 0 := by omega
  have e1 : (a * m + r) / m = a := by
    rw [add_comm, Int.add_mul_ediv_right _ _ hm, Int.ediv_eq_zero_of_lt hr hrm, zero_add]
  have e2 : (a' * m + r') / m = a' := by
    rw [add_comm, Int.add_mul_ediv_right _ _ hm, Int.ediv_eq_zero_of_lt hr' hrm', zero_add]
  rw [h, e2] at e1
  subst e1
  exact ⟨rfl, by omega⟩

theorem tailKey_range {D : ℕ} (nc cell : Fin D → ℤ) (h : ∀ d, 0 ≤ cell d ∧ cell d < nc d) :
    0 ≤ tailKey nc cell 0 ∧ tailKey nc cell 0 < mulZ nc 0 := by
  have hn : ∀ d, 0 ≤ nc d := fun d => (h d).1.trans (h d).2.le
  obtain ⟨nc', rfl⟩ : ∃ nc' : Fin D → ℕ, nc = fun i => (nc' i : ℤ) :=
    ⟨fun i => (nc i).toNat, funext fun i => (Int.toNat_of_nonneg (hn i)).symm⟩
  obtain ⟨c, rfl⟩ : ∃ c : Fin D → ℕ, cell = fun i => (c i : ℤ) :=
    ⟨fun i => (cell i).toNat, funext fun i => (Int.toNat_of_nonneg (h i).1).symm⟩
  rw [tailKey_cast, mulZ_cast]
  exact ⟨by positivity, Int.ofNat_lt.mpr (localKey_lt nc' c (fun d => Int.ofNat_lt.mp (h d).2))⟩

/-- What the tables built by the kernel satisfy. -/
def TabSpec {k : ℕ} (nc : Fin (k + 2) → ℤ) (n : ℕ) (keys : ℕ → ℤ) (tab : ℤ → ℕ × ℕ) : Prop :=
  ∀ s, 0 ≤ s → (∀ i, i < n → (((tab s).1 ≤ i ∧ i < (tab s).2) ↔ cuDsFromKey (keys i) nc = s)) ∧
    (tab s).2 ≤ n

theorem cuFindRange_spec {k : ℕ} (nc : Fin (k + 2) → ℤ) (hn : ∀ d, 0 < nc d) (n : ℕ) (keys : ℕ → ℤ)
    (hk : ∀ i, i < n → 0 ≤ keys i) (hs : ∀ i j, i ≤ j → j < n → keys j ≤ keys i)
    (tab : ℤ → ℕ × ℕ) (ht : TabSpec nc n keys tab) (key : ℤ) (hkey : 0 ≤ key)
    (off : Fin (k + 2) → ℤ) (hoff : off (Fin.last _) = 0) (fuel : ℕ) (hf : Nat.clog 2 n + 1 ≤ fuel) :
    ∃ r, cuFindRange fuel nc keys tab 1 key off = some r ∧ r.2 ≤ n ∧
      ∀ i, i < n → ((r.1 ≤ i ∧ i < r.2) ↔
        (∀ d, 0 ≤ (cuDecode key nc).2 d + off d ∧ (cuDecode key nc).2 d + off d < nc d) ∧
        cuDsFromKey (keys i) nc =
          cuDsFromCell (cuDecode key nc).1 (fun d => (cuDecode key nc).2 d + off d) nc ∧
        |keys i - cuKey (fun d => (cuDecode key nc).2 d + off d) nc (cuDecode key nc).1| ≤ 1) := by
  obtain ⟨hb, hc, _⟩ := cuDecode_spec nc hn key hkey
  generalize hbE : (cuDecode key nc).1 = b at hb
  generalize hcE : (cuDecode key nc).2 = c at hc
  unfold cuFindRange
  dsimp only
  rw [hbE, hcE]
  have hin : (∀ d : Fin (k + 2), d.val < k + 2 - 1 → 0 ≤ c d + off d ∧ c d + off d < nc d) ↔
      ∀ d, 0 ≤ c d + off d ∧ c d + off d < nc d := by
    constructor
    · intro h d
      by_cases hd : d.val < k + 2 - 1
      · exact h d hd
      · have : d = Fin.last _ := Fin.ext (by have := d.isLt; simp only [Fin.val_last]; omega)
        rw [this, hoff]
        have := hc (Fin.last _)
        omega
    · exact fun h d _ => h d
  by_cases hins : ∀ d, 0 ≤ c d + off d ∧ c d + off d < nc d
  · rw [if_pos (hin.mpr hins)]
    generalize hcell : (fun d => c d + off d) = cell
    have hcr : ∀ d, 0 ≤ cell d ∧ cell d < nc d := by rw [← hcell]; exact hins
    obtain ⟨hds, hds'⟩ := C53_ds_index nc b cell hb hcr
    have hs0 : 0 ≤ cuDsFromCell b cell nc := by
      rw [hds']
      have h1 := mul_nonneg hb (hn 0).le
      have h2 := mul_nonneg (add_nonneg h1 (hcr 0).1) (hn 1).le
      have := (hcr 1).1
      omega
    obtain ⟨ht1, ht2⟩ := ht _ hs0
    -- keys in the tube belong to the batch element
    have htube : ∀ i, i < n → cuDsFromKey (keys i) nc = cuDsFromCell b cell nc →
        ∃ r', keys i = b * mulZ nc 0 + r' ∧ 0 ≤ r' ∧ r' < mulZ nc 0 := by
      intro i hi he
      obtain ⟨g1, g2, g3⟩ := cuDecode_spec nc hn (keys i) (hk i hi)
      obtain ⟨q1, q2⟩ := C53_ds_index nc _ _ g1 g2
      rw [g3] at q1
      rw [q1, q2, hds'] at he
      obtain ⟨e1, e2⟩ := mulAddInjZ (g2 1).1 (g2 1).2 (hcr 1).1 (hcr 1).2 he
      obtain ⟨e3, e4⟩ := mulAddInjZ (g2 0).1 (g2 0).2 (hcr 0).1 (hcr 0).2 e1
      obtain ⟨t1, t2⟩ := tailKey_range nc _ g2
      refine ⟨tailKey nc (cuDecode (keys i) nc).2 0, ?_, t1, t2⟩
      rw [← e3]
      conv_lhs => rw [← g3, cuKey_eq]
      ring
    obtain ⟨a1, a2⟩ := tailKey_range nc cell hcr
    have haux : cuKey cell nc b = b * mulZ nc 0 + tailKey nc cell 0 := by rw [cuKey_eq]; ring
    by_cases hrg : (tab (cuDsFromCell b cell nc)).1 < (tab (cuDsFromCell b cell nc)).2
    · rw [if_pos hrg]
      generalize hlo : (tab (cuDsFromCell b cell nc)).1 = lo at *
      generalize hhi : (tab (cuDsFromCell b cell nc)).2 = hi at *
      generalize hbd : keyBounds (cuKey cell nc b) (cuTotal nc) 1 = bd
      have hcl : Nat.clog 2 (hi - lo - 1) ≤ Nat.clog 2 n := Nat.clog_mono_right 2 (by omega)
      obtain ⟨s', e1, e2, e3, e4⟩ := searchLoop_some keys lo (hi - lo - 1) bd.1 bd.2 fuel (hi - lo - 1)
        ⟨(0, hi - lo - 1), (0, hi - lo - 1)⟩ (searchInv_init _ _ _ _) (by dsimp only; omega)
        (by dsimp only; omega) (by omega)
      rw [e1]
      obtain ⟨x1, x2⟩ := search_exact keys lo (hi - lo - 1) bd.1 bd.2
        (fun i j h1 h2 => hs (i + lo) (j + lo) (by omega) (by omega)) s' e2 e3 e4
      refine ⟨_, rfl, ?_, ?_⟩
      · rcases x2 with x2 | x2
        · rw [x2]; exact Nat.zero_le _
        · omega
      · intro i hi'
        constructor
        · intro hr
          have hlohi : lo ≤ i ∧ i < hi := by
            rcases x2 with x2 | x2
            · rw [x2] at hr; omega
            · omega
          have hde := (ht1 i hi').mp hlohi
          obtain ⟨r', k1, k2, k3⟩ := htube i hi' hde
          have hx := (x1 (i - lo) (by omega)).mp (by
            rw [show i - lo + lo = i by omega]; exact hr)
          rw [show i - lo + lo = i by omega, k1, ← hbd, haux, cuTotal_eq] at hx
          rw [keyBounds_iff hb a1 a2 k2 k3] at hx
          refine ⟨hins, hde, ?_⟩
          rw [k1, haux]
          rw [show b * mulZ nc 0 + r' - (b * mulZ nc 0 + tailKey nc cell 0) = r' - tailKey nc cell 0 by
            ring]
          exact hx
        · rintro ⟨_, hde, habs⟩
          have hlohi := (ht1 i hi').mpr hde
          obtain ⟨r', k1, k2, k3⟩ := htube i hi' hde
          rw [k1, haux, show b * mulZ nc 0 + r' - (b * mulZ nc 0 + tailKey nc cell 0) =
            r' - tailKey nc cell 0 by ring, ← keyBounds_iff hb a1 a2 k2 k3] at habs
          have hx := (x1 (i - lo) (by omega)).mpr (by
            rw [show i - lo + lo = i by omega, k1, ← hbd, haux, cuTotal_eq]; exact habs)
          rw [show i - lo + lo = i by omega] at hx
          exact hx
    · rw [if_neg hrg]
      refine ⟨_, rfl, Nat.zero_le _, ?_⟩
      intro i hi
      constructor
      · rintro ⟨_, h⟩; exact absurd h (Nat.not_lt_zero _)
      · rintro ⟨_, hde, _⟩
        have := (ht1 i hi).mpr hde
        omega
  · rw [if_neg (fun h => hins (hin.mp h))]
    refine ⟨_, rfl, Nat.zero_le _, ?_⟩
    intro i hi
    constructor
    · rintro ⟨_, h⟩; exact absurd h (Nat.not_lt_zero _)
    · rintro ⟨h, _⟩
      exact absurd h hins

theorem cuFindRange2_spec {k : ℕ} (nc : Fin (k + 2) → ℤ) (hn : ∀ d, 0 < nc d) (n : ℕ) (keys : ℕ → ℤ)
    (tab : ℤ → ℕ × ℕ) (ht : TabSpec nc n keys tab) (key : ℤ) (hkey : 0 ≤ key)
    (off : Fin (k + 2) → ℤ) :
    (cuFindRange2 nc tab key off).2 ≤ n ∧
      ∀ i, i < n → (((cuFindRange2 nc tab key off).1 ≤ i ∧ i < (cuFindRange2 nc tab key off).2) ↔
        (∀ d, 0 ≤ (cuDecode key nc).2 d + off d ∧ (cuDecode key nc).2 d + off d < nc d) ∧
        cuDsFromKey (keys i) nc =
          cuDsFromCell (cuDecode key nc).1 (fun d => (cuDecode key nc).2 d + off d) nc) := by
  obtain ⟨hb, hc, _⟩ := cuDecode_spec nc hn key hkey
  unfold cuFindRange2
  dsimp only
  by_cases hins : ∀ d, 0 ≤ (cuDecode key nc).2 d + off d ∧ (cuDecode key nc).2 d + off d < nc d
  · rw [if_pos hins]
    obtain ⟨hds, hds'⟩ := C53_ds_index nc _ _ hb hins
    have hs0 : 0 ≤ cuDsFromCell (cuDecode key nc).1 (fun d => (cuDecode key nc).2 d + off d) nc := by
      rw [hds']
      have h1 := mul_nonneg hb (hn 0).le
      have h2 := mul_nonneg (add_nonneg h1 (hins 0).1) (hn 1).le
      have := (hins 1).1
      omega
    obtain ⟨ht1, ht2⟩ := ht _ hs0
    refine ⟨ht2, fun i hi => ?_⟩
    rw [ht1 i hi]
    exact ⟨fun h => ⟨hins, h⟩, fun h => h.2⟩
  · rw [if_neg hins]
    refine ⟨Nat.zero_le _, fun i hi => ?_⟩
    constructor
    · rintro ⟨_, h⟩; exact absurd h (Nat.not_lt_zero _)
    · rintro ⟨h, _⟩; exact absurd h hins

/-! ### offsets -/

theorem offsetLoop_decode (M : ℕ) (j : ℕ) (hj : j ≤ M) (aux : ℕ) (o r : ℕ → ℤ)
    (hor : ∀ x, r (x + 1) = o x + 1) (x : ℕ) :
    (cuDecodeLoop (fun _ : Fin M => (3 : ℤ)) j (aux, r)).2 (x + 1) =
      (offsetLoop 1 j (aux, o)).2 x + 1 := by
  induction j generalizing aux o r with
  | zero => exact hor x
  | succ j ih =>
    have e : ptAt (fun _ : Fin M => (3 : ℤ)) j = 3 := ptAt_lt _ (by omega)
    rw [cuDecodeLoop, offsetLoop, e]
    have e2 : ((aux : ℤ).tdiv 3) = ((aux / 3 : ℕ) : ℤ) := by
      rw [Int.tdiv_eq_ediv_of_nonneg (by positivity)]; rfl
    have e3 : ((aux : ℤ).tmod 3) = ((aux % 3 : ℕ) : ℤ) := by
      rw [Int.tmod_eq_emod_of_nonneg (by positivity)]; rfl
    rw [e2, e3]
    refine ih (by omega) (aux / 3) _ _ ?_
    intro y
    by_cases hy : y = j
    · subst hy
      rw [Function.update_self, Function.update_self]
      push_cast
      ring
    · rw [Function.update_of_ne (by omega), Function.update_of_ne hy]
      exact hor y

/-- Digit vectors in `{-1,0,1}` and numbers below `3^M` correspond. -/
theorem digits_exists (M : ℕ) (t : Fin M → ℤ) (ht : ∀ d, -1 ≤ t d ∧ t d ≤ 1) :
    ∃ i : ℕ, i < 3 ^ M ∧ ∀ d : Fin M, (offsetLoop 1 M (i, fun _ => 0)).2 d.val = t d := by
  have hr : ∀ d, 0 ≤ t d + 1 ∧ t d + 1 < (fun _ : Fin M => (3 : ℤ)) d := fun d => by
    have := ht d; dsimp only; omega
  obtain ⟨h1, h2⟩ := tailKey_range (fun _ : Fin M => (3 : ℤ)) (fun d => t d + 1) hr
  have hm : mulZ (fun _ : Fin M => (3 : ℤ)) 0 = 3 ^ M := by simp [mulZ]
  rw [hm] at h2
  obtain ⟨i, hi⟩ := Int.eq_ofNat_of_zero_le h1
  refine ⟨i, by exact_mod_cast (hi ▸ h2), ?_⟩
  intro d
  have hd := cuDecode_cuKey (fun _ : Fin M => (3 : ℤ)) (b := 0) le_rfl hr
  rw [cuKey_eq, mul_zero, add_zero, hi] at hd
  have h3 := congrFun (congrArg Prod.snd hd) d
  unfold cuDecode at h3
  dsimp only at h3
  have h4 := (cuDecodeLoop_spec (fun _ : Fin M => (3 : ℤ)) (fun _ => by norm_num) M le_rfl i
    (by positivity) (fun _ => 0))
  have h5 := offsetLoop_decode M M le_rfl i (fun _ => 0) (fun _ => 1) (fun _ => by norm_num) d.val
  have h6 : ∀ (j : ℕ), j ≤ M → ∀ (aux : ℤ) (r r' : ℕ → ℤ) (x : ℕ), (j ≤ x → r (x + 1) = r' (x + 1)) →
      (cuDecodeLoop (fun _ : Fin M => (3 : ℤ)) j (aux, r)).2 (x + 1) =
      (cuDecodeLoop (fun _ : Fin M => (3 : ℤ)) j (aux, r')).2 (x + 1) := by
    intro j
    induction j with
    | zero => intro _ aux r r' x h; exact h (Nat.zero_le _)
    | succ j ih =>
      intro hj aux r r' x h
      rw [cuDecodeLoop, cuDecodeLoop]
      refine ih (by omega) _ _ _ x ?_
      intro hx
      by_cases hxj : x = j
      · subst hxj; rw [Function.update_self, Function.update_self]
      · rw [Function.update_of_ne (by omega), Function.update_of_ne (by omega)]
        exact h (by omega)
  have h7 := h6 M le_rfl i (fun _ => 0) (fun _ => 1) d.val (fun h => absurd d.isLt (by omega))
  have h8 : (offsetLoop 1 M (i, fun _ => 0)).2 d.val + 1 = t d + 1 := by
    rw [← h5, ← h7]; exact h3
  omega

theorem digits_range (M : ℕ) (i : ℕ) (d : ℕ) (hd : d < M) :
    -1 ≤ (offsetLoop 1 M (i, fun _ => 0)).2 d ∧ (offsetLoop 1 M (i, fun _ => 0)).2 d ≤ 1 := by
  have h5 := offsetLoop_decode M M le_rfl i (fun _ => 0) (fun _ => 1) (fun _ => by norm_num) d
  have h4 := (cuDecodeLoop_spec (fun _ : Fin M => (3 : ℤ)) (fun _ => by norm_num) M le_rfl i
    (by positivity) (fun _ => 1)).2.2.1 d hd
  rw [h5, ptAt_lt _ hd] at h4
  omega

theorem numOffsets_eq (D : ℕ) : numOffsets D 1 = 3 ^ offsetDigits D := by
  unfold numOffsets offsetDigits
  rw [pow_succ]
  ring

theorem offsetDigits_eq (k : ℕ) : offsetDigits (k + 3) = k + 2 := by
  unfold offsetDigits; omega

/-- The offsets are exactly the vectors with entries in `{-1,0,1}`, last entry 0
unless `D = 2`. -/
theorem mem_cuOffsets (k : ℕ) (off : Fin (k + 2) → ℤ) :
    off ∈ cuOffsets (k + 2) 1 ↔
      (∀ d, -1 ≤ off d ∧ off d ≤ 1) ∧ (k ≠ 0 → off (Fin.last _) = 0) := by
  unfold cuOffsets
  rw [List.mem_map]
  have hdig : offsetDigits (k + 2) = if k = 0 then 2 else k + 1 := by
    unfold offsetDigits; split <;> omega
  constructor
  · rintro ⟨i, hi, rfl⟩
    constructor
    · intro d
      unfold offsetAt
      dsimp only
      split
      · omega
      · rename_i h
        refine digits_range _ i _ ?_
        rw [hdig]
        have := d.isLt
        split <;> omega
    · intro hk
      unfold offsetAt
      dsimp only
      rw [if_pos ⟨by omega, by rw [Fin.val_last]; rfl⟩]
  · rintro ⟨h1, h2⟩
    by_cases hk : k = 0
    · subst hk
      obtain ⟨i, hi, hd⟩ := digits_exists 2 off h1
      refine ⟨i, List.mem_range.mpr (by rw [numOffsets_eq]; exact hi), ?_⟩
      funext d
      unfold offsetAt
      dsimp only
      rw [if_neg (by simp), hdig]
      exact hd d
    · obtain ⟨i, hi, hd⟩ := digits_exists (k + 1) (fun d => off d.castSucc) (fun d => h1 _)
      refine ⟨i, List.mem_range.mpr (by rw [numOffsets_eq, hdig, if_neg hk]; exact hi), ?_⟩
      funext d
      unfold offsetAt
      dsimp only
      rw [hdig, if_neg hk]
      refine Fin.lastCases ?_ (fun d => ?_) d
      · rw [if_pos ⟨by omega, by rw [Fin.val_last]; rfl⟩, h2 hk]
      · rw [if_neg (by have := d.isLt; rw [Fin.val_castSucc]; omega)]
        exact hd d

theorem length_cuOffsets (D : ℕ) : (cuOffsets D 1).length = 3 ^ offsetDigits D := by
  unfold cuOffsets
  rw [List.length_map, List.length_range, numOffsets_eq]

/-- No offset is listed twice: there are as many numbers as vectors. -/
theorem nodup_cuOffsets (k : ℕ) : (cuOffsets (k + 2) 1).Nodup := by
  have hdig : offsetDigits (k + 2) = if k = 0 then 2 else k + 1 := by
    unfold offsetDigits; split <;> omega
  -- the set of all vectors, enumerated by functions into `Fin 3`
  by_cases hk : k = 0
  · subst hk; decide
  · rw [if_neg hk] at hdig
    let F : (Fin (k + 1) → Fin 3) → (Fin (k + 2) → ℤ) := fun t =>
      Fin.lastCases (motive := fun _ => ℤ) 0 (fun d => ((t d).val : ℤ) - 1)
    have hF : Function.Injective F := by
      intro t t' h
      funext d
      have := congrFun h d.castSucc
      simp only [F, Fin.lastCases_castSucc] at this
      exact Fin.ext (by omega)
    have hsub : (Finset.univ.image F) ⊆ (cuOffsets (k + 2) 1).toFinset := by
      intro off ho
      obtain ⟨t, _, rfl⟩ := Finset.mem_image.mp ho
      rw [List.mem_toFinset, mem_cuOffsets]
      constructor
      · intro d
        refine Fin.lastCases ?_ (fun d => ?_) d
        · simp [F]
        · simp only [F, Fin.lastCases_castSucc]
          have := (t d).isLt
          omega
      · intro _
        simp [F]
    have hcard := Finset.card_le_card hsub
    rw [Finset.card_image_of_injective _ hF, Finset.card_univ] at hcard
    simp only [Fintype.card_pi, Fintype.card_fin, Finset.prod_const, Finset.card_univ] at hcard
    have hl := length_cuOffsets (k + 2)
    rw [hdig] at hl
    have h2 := List.toFinset_card_le (cuOffsets (k + 2) 1)
    rw [← Multiset.coe_nodup, ← Multiset.toFinset_card_eq_card_iff_nodup]
    show (cuOffsets (k + 2) 1).toFinset.card = _
    rw [Multiset.coe_card]
    omega

theorem blocks_flatten {α : Type*} (c q : ℕ) (l : List α) (hl : l.length = c * q) :
    ((List.range q).map (fun i => (l.drop (c * i)).take c)).flatten = l := by
  induction q generalizing l with
  | zero =>
    have : l = [] := List.length_eq_zero_iff.mp (by simpa using hl)
    subst this; rfl
  | succ q ih =>
    rw [List.range_succ_eq_map, List.map_cons, List.flatten_cons, List.map_map]
    have e : ((fun i => (l.drop (c * i)).take c) ∘ Nat.succ) =
        fun i => (((l.drop c).drop (c * i)).take c) := by
      funext i
      simp only [Function.comp, List.drop_drop, Nat.succ_eq_add_one]
      congr 2
      ring
    rw [e, ih (l.drop c) (by rw [List.length_drop, hl, Nat.mul_succ]; omega)]
    simp

theorem offsetBlocks_flatten (k : ℕ) : (offsetBlocks (k + 2) 1).flatten = cuOffsets (k + 2) 1 := by
  unfold offsetBlocks
  apply blocks_flatten
  rw [length_cuOffsets, numOffsets_eq]
  have h2 : ∃ e, offsetDigits (k + 2) = e + 2 := ⟨k - 1, by unfold offsetDigits; omega⟩
  obtain ⟨e, he⟩ := h2
  rw [he, pow_add, show (3 : ℕ) ^ 2 = 9 by norm_num, offsetsPerBlock,
    Nat.mul_div_cancel _ (by norm_num)]
  ring

/-! ### candidates -/

section
variable {K : Type*} [Field K] [LinearOrder K] [IsStrictOrderedRing K] [FloorRing K]

theorem cuCandidates_eq {D : ℕ} (fuel : ℕ) (g : Grid D K) (tab : ℤ → ℕ × ℕ) (b : ℕ) (p : Fin D → K)
    (rg : (Fin D → ℤ) → ℕ × ℕ) (l : List (Fin D → ℤ))
    (h : ∀ off ∈ l, cuRange fuel (cuNc g) (cuSortedKeys g) tab 1 (cuGridKey g b p) off =
      some (rg off)) :
    cuCandidates fuel g tab b p l =
      some (l.flatMap (fun off => List.range' (rg off).1 ((rg off).2 - (rg off).1))) := by
  induction l with
  | nil => rfl
  | cons off l ih =>
    rw [cuCandidates, h off List.mem_cons_self, ih (fun o ho => h o (List.mem_cons_of_mem _ ho))]
    rfl

end

end PC
