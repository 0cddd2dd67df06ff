import Verif.Props.IO
import Verif.Props.PointCloud

/-!
# Properties of the batch loaders: C51, C80
-/

set_option linter.unusedVariables false
set_option linter.unusedSectionVars false

namespace PC

/-! ### C51, C80: batches -/

/-- Specification: the batch shape `shape` of the call describes `B` elements and
the resulting shape is `sh`: either all entries are given, or one entry is -1 and
stands for the number that makes the product right. -/
def Fits (shape : List ℤ) (B : ℕ) (sh : List ℕ) : Prop :=
  sh.prod = B ∧ (shape = sh.map (Nat.cast : ℕ → ℤ) ∨
    ∃ pre post : List ℕ, ∃ q : ℕ, shape = pre.map (Nat.cast : ℕ → ℤ) ++ (-1) :: post.map (Nat.cast : ℕ → ℤ) ∧
      sh = pre ++ q :: post ∧ (pre ++ post).prod ≠ 0)

/-- Specification: the rows followed by zero rows up to `V` rows. -/
def padTo {K : Type*} [Zero K] (V cols : ℕ) (rows : List (List K)) : List (List K) :=
  rows ++ List.replicate (V - rows.length) (List.replicate cols 0)

theorem natCast_ne (l : List ℕ) : (-1 : ℤ) ∉ l.map (Nat.cast : ℕ → ℤ) := by
  intro h
  obtain ⟨x, _, hx⟩ := List.mem_map.1 h
  omega

theorem filter_natCast (l : List ℕ) :
    (l.map (Nat.cast : ℕ → ℤ)).filter (fun x => decide (x ≠ -1)) = l.map (Nat.cast : ℕ → ℤ) := by
  rw [List.filter_eq_self]
  intro x hx
  have : x ≠ -1 := fun e => natCast_ne l (e ▸ hx)
  simpa using this

theorem toNat_natCast (l : List ℕ) : (l.map (Nat.cast : ℕ → ℤ)).map Int.toNat = l := by
  rw [List.map_map]
  conv_rhs => rw [← List.map_id l]
  exact List.map_congr_left (fun x _ => by simp)

theorem reshape_nat (sh : List ℕ) (total : ℕ) (h : sh.prod = total) :
    reshapeShape total (sh.map (Nat.cast : ℕ → ℤ)) = .ok sh := by
  have h1 : ¬ (1 < (sh.map (Nat.cast : ℕ → ℤ)).count (-1) ∨ ∃ x ∈ sh.map (Nat.cast : ℕ → ℤ), x < -1) := by
    rintro (h1 | ⟨x, hx, hlt⟩)
    · rw [List.count_eq_zero_of_not_mem (natCast_ne sh)] at h1; omega
    · obtain ⟨y, _, rfl⟩ := List.mem_map.1 hx; omega
  unfold reshapeShape
  rw [if_neg h1]
  dsimp only
  rw [if_neg (natCast_ne sh), filter_natCast, toNat_natCast, if_pos h]

theorem reshape_wild (pre post : List ℕ) (q total : ℕ) (h : (pre ++ q :: post).prod = total)
    (h0 : (pre ++ post).prod ≠ 0) :
    reshapeShape total (pre.map (Nat.cast : ℕ → ℤ) ++ (-1) :: post.map (Nat.cast : ℕ → ℤ)) =
      .ok (pre ++ q :: post) := by
  set shape := pre.map (Nat.cast : ℕ → ℤ) ++ (-1) :: post.map (Nat.cast : ℕ → ℤ) with hs
  have h1 : ¬ (1 < shape.count (-1) ∨ ∃ x ∈ shape, x < -1) := by
    rintro (h1 | ⟨x, hx, hlt⟩)
    · rw [hs, List.count_append, List.count_cons_self, List.count_eq_zero_of_not_mem (natCast_ne pre),
        List.count_eq_zero_of_not_mem (natCast_ne post)] at h1
      omega
    · rw [hs, List.mem_append, List.mem_cons] at hx
      rcases hx with hx | hx | hx
      · obtain ⟨y, _, rfl⟩ := List.mem_map.1 hx; omega
      · omega
      · obtain ⟨y, _, rfl⟩ := List.mem_map.1 hx; omega
  have hfil : ((shape.filter (fun x => decide (x ≠ -1))).map Int.toNat) = pre ++ post := by
    rw [hs, List.filter_append, List.filter_cons_of_neg (by simp), filter_natCast, filter_natCast,
      List.map_append, toNat_natCast, toNat_natCast]
  have htot : total = q * (pre ++ post).prod := by
    rw [← h]; simp only [List.prod_append, List.prod_cons]; ring
  unfold reshapeShape
  rw [if_neg h1]
  dsimp only
  rw [hfil, if_pos (by rw [hs]; simp),
    if_neg (by rw [htot]; simp only [Nat.mul_mod_left, ne_eq, not_true_eq_false, or_false]; exact h0)]
  have hq : total / (pre ++ post).prod = q := by
    rw [htot]; exact Nat.mul_div_cancel _ (Nat.pos_of_ne_zero h0)
  rw [hq]
  have key : ∀ l : List ℕ, (l.map (Nat.cast : ℕ → ℤ)).map (fun x => if x = -1 then q else x.toNat) = l := by
    intro l
    rw [List.map_map]
    conv_rhs => rw [← List.map_id l]
    refine List.map_congr_left (fun x _ => ?_)
    have : (x : ℤ) ≠ -1 := by omega
    simp [this]
  rw [hs, List.map_append, List.map_cons, key, key]
  simp

theorem reshape_fits {shape : List ℤ} {B : ℕ} {sh : List ℕ} (h : Fits shape B sh) :
    reshapeShape B shape = .ok sh := by
  obtain ⟨hp, rfl | ⟨pre, post, q, rfl, rfl, h0⟩⟩ := h
  · exact reshape_nat sh B hp
  · exact reshape_wild pre post q B hp h0

/-- The result of `tf.reshape` has as many entries as the input. -/
theorem reshape_prod {shape : List ℤ} {B : ℕ} {sh : List ℕ} (h : reshapeShape B shape = .ok sh) :
    sh.prod = B := by
  unfold reshapeShape at h
  split at h
  · cases h
  · rename_i hc
    push Not at hc
    dsimp only at h
    split at h
    · rename_i hm
      split at h
      · cases h
      · rename_i hp
        push Not at hp
        cases h
        set p := ((shape.filter (fun x => decide (x ≠ -1))).map Int.toNat).prod with hpd
        have key : ∀ (l : List ℤ) (q : ℕ), (l.map (fun x => if x = -1 then q else x.toNat)).prod =
            q ^ l.count (-1) * ((l.filter (fun x => decide (x ≠ -1))).map Int.toNat).prod := by
          intro l q
          induction l with
          | nil => simp
          | cons a l ih =>
            by_cases ha : a = -1
            · subst ha
              rw [List.map_cons, List.prod_cons, ih, List.count_cons_self, List.filter_cons_of_neg (by simp), pow_succ]
              simp only [if_true]
              ring
            · rw [List.map_cons, List.prod_cons, ih, List.count_cons_of_ne ha,
                List.filter_cons_of_pos (by simpa using ha), List.map_cons, List.prod_cons, if_neg ha]
              ring
        have h1 : shape.count (-1) = 1 := le_antisymm hc.1 (List.count_pos_iff.2 hm)
        rw [key, h1, pow_one, ← hpd]
        exact Nat.div_mul_cancel (Nat.dvd_of_mod_eq_zero hp.2)
    · rename_i hm
      split at h
      · rename_i hp
        cases h
        rw [← hp]
        congr 2
        rw [eq_comm, List.filter_eq_self]
        intro x hx
        have : x ≠ -1 := fun e => hm (e ▸ hx)
        simpa using this
      · cases h

theorem fits_append {shape : List ℤ} {B : ℕ} {sh : List ℕ} (h : Fits shape B sh) (V cols : ℕ)
    (hV : -1 ∈ shape → V ≠ 0) (hc : -1 ∈ shape → cols ≠ 0) :
    Fits (shape ++ [(V : ℤ), (cols : ℤ)]) (B * (V * cols)) (sh ++ [V, cols]) := by
  obtain ⟨hp, rfl | ⟨pre, post, q, rfl, rfl, h0⟩⟩ := h
  · exact ⟨by simp [hp], Or.inl (by simp)⟩
  · refine ⟨by rw [List.prod_append, hp]; simp, Or.inr ⟨pre, post ++ [V, cols], q, by simp, by simp, ?_⟩⟩
    have h1 := hV (by simp)
    have h2 := hc (by simp)
    rw [← List.append_assoc, List.prod_append]
    exact mul_ne_zero h0 (by simp [h1, h2])

theorem fits_length {shape : List ℤ} {B : ℕ} {sh : List ℕ} (h : Fits shape B sh) :
    shape.length = sh.length := by
  obtain ⟨_, rfl | ⟨pre, post, q, rfl, rfl, _⟩⟩ := h <;> simp

theorem chunk_flatten {β : Type*} (V : ℕ) (ts : List (List β)) (h : ∀ t ∈ ts, t.length = V) :
    chunk V ts.length ts.flatten = ts := by
  induction ts with
  | nil => rfl
  | cons t ts ih =>
    have ht := h t (by simp)
    show (t ++ ts.flatten).take V :: chunk V ts.length ((t ++ ts.flatten).drop V) = _
    rw [← ht, List.take_left', List.drop_left', ht]
    · exact congrArg _ (ih (fun t' h' => h t' (by simp [h'])))
    all_goals rfl

theorem length_flatten_const {β : Type*} (V : ℕ) (ts : List (List β)) (h : ∀ t ∈ ts, t.length = V) :
    ts.flatten.length = ts.length * V := by
  induction ts with
  | nil => simp
  | cons t ts ih =>
    rw [List.flatten_cons, List.length_append, ih (fun t' h' => h t' (by simp [h'])), h t (by simp),
      List.length_cons]
    ring

theorem stackReshape_ok {K : Type*} {V cols : ℕ} {shape : List ℤ} {sh : List ℕ} {ts : List (List (List K))}
    (hf : Fits shape ts.length sh) (hV : -1 ∈ shape → V ≠ 0) (hc : -1 ∈ shape → cols ≠ 0)
    (ht : ∀ t ∈ ts, t.length = V) : stackReshape V cols shape ts = .ok (sh, ts) := by
  unfold stackReshape
  rw [if_neg (by rw [rect_of_width V ht]; decide), length_flatten_const V ts ht, mul_assoc,
    reshape_fits (fits_append hf V cols hV hc)]
  dsimp only
  rw [fits_length hf, List.take_left' rfl, hf.1, chunk_flatten V ts ht]

theorem padRows_ok {K : Type*} [Zero K] (V cols : ℕ) (rows : List (List K)) (h : ∀ r ∈ rows, r.length = cols) :
    padRows (V - rows.length) cols rows = .ok (padTo V cols rows) := by
  unfold padRows
  rw [if_pos h]; rfl

theorem padTo_length {K : Type*} [Zero K] (V cols : ℕ) (rows : List (List K)) (h : rows.length ≤ V) :
    (padTo V cols rows).length = V := by
  simp [padTo]; omega

theorem le_foldr_max (l : List ℕ) : ∀ x ∈ l, x ≤ l.foldr max 0 := by
  induction l with
  | nil => simp
  | cons a l ih =>
    intro x hx
    rcases List.mem_cons.1 hx with rfl | hx
    · exact le_max_left _ _
    · exact le_trans (ih x hx) (le_max_right _ _)

theorem padAll_ok {K : Type*} [Zero K] (V pd fd : ℕ) (xs : List (List (List K) × List (List K)))
    (hp : ∀ x ∈ xs, ∀ r ∈ x.1, r.length = pd) (hf : ∀ x ∈ xs, ∀ r ∈ x.2, r.length = fd)
    (hl : ∀ x ∈ xs, x.2.length = x.1.length) :
    padAll V pd fd xs = .ok (xs.map (fun x => padTo V pd x.1), xs.map (fun x => padTo V fd x.2)) := by
  induction xs with
  | nil => rfl
  | cons x xs ih =>
    obtain ⟨p, f⟩ := x
    rw [padAll, padRows_ok V pd p (hp (p, f) (by simp))]
    have h1 := padRows_ok V fd f (hf (p, f) (by simp))
    rw [show f.length = p.length from hl (p, f) (by simp)] at h1
    simp only [h1, ih (fun x hx => hp x (by simp [hx])) (fun x hx => hf x (by simp [hx]))
      (fun x hx => hl x (by simp [hx])), List.map_cons]

theorem loadAll_ok {α β : Type*} (load : PathArg → Except Err α) (files : List PathArg) (xs : List β)
    (g : β → α) (h : files.map load = xs.map (fun x => .ok (g x))) : loadAll load files = .ok (xs.map g) := by
  induction files generalizing xs with
  | nil => cases xs with
    | nil => rfl
    | cons x xs => simp at h
  | cons f fs ih => cases xs with
    | nil => simp at h
    | cons x xs =>
      simp only [List.map_cons, List.cons.injEq] at h
      rw [loadAll, h.1, ih xs h.2]
      rfl

theorem Reads.length {K : Type*} {num : List Char → Option K} {rows : List (List (List Char))}
    {vals : List (List K)} (h : Reads num rows vals) : vals.length = rows.length := by
  have := congrArg List.length h
  simpa using this.symm

theorem Reads.width {K : Type*} {num : List Char → Option K} {rows : List (List (List Char))}
    {vals : List (List K)} (h : Reads num rows vals) (w : ℕ) (hw : ∀ r ∈ rows, r.length = w) :
    ∀ v ∈ vals, v.length = w := by
  intro v hv
  have : v.map some ∈ vals.map (fun r => r.map some) := List.mem_map_of_mem hv
  rw [← h] at this
  obtain ⟨r, hr, he⟩ := List.mem_map.1 this
  have := congrArg List.length he
  simp only [List.length_map] at this
  rw [← this, hw r hr]

/-- A file of a batch: the fields of its table and the numbers they denote. -/
structure TableFile (K : Type*) where
  rows : List (List (List Char))
  vals : List (List K)

/-- A well-formed file with `w` columns. -/
structure TableFile.Ok {K : Type*} (num : List Char → Option K) (d : List Char) (w : ℕ) (t : TableFile K) :
    Prop where
  clean : CleanTable d t.rows
  width : ∀ r ∈ t.rows, r.length = w
  ne : t.rows ≠ []
  reads : Reads num t.rows t.vals

/-- The largest number of rows. -/
def maxRows {K : Type*} (T : List (TableFile K)) : ℕ := (T.map (fun t => t.vals.length)).foldr max 0

/-- **C51.** For files with three coordinates and at least one feature per line,
the same number of columns in all files and the default `point_dimension=3`, the
batch loader returns for every file its rows followed by zero rows up to the
largest file and sizes equal to the row counts, all in the requested batch shape
(`[-1]` or sizes with the right product).  What is missing for the full claim:
other values of `point_dimension` (`C51_point_dimension_raises`), and the
restrictions of C49. -/
theorem C51_batch_partial {K : Type*} [Zero K] (fs : String → Option (List Char)) (num : List Char → Option K)
    (files : List String) (T : List (TableFile K)) (shape : List ℤ) (sh : List ℕ) (d : List Char) (w : ℕ)
    (hfiles : files.map fs = T.map (fun t => some (textOf d t.rows))) (hT : T ≠ [])
    (hok : ∀ t ∈ T, t.Ok num d w) (h3 : 3 < w)
    (hsh : shape = [-1] ∧ sh = [files.length] ∨ shape = sh.map (Nat.cast : ℕ → ℤ) ∧ sh.prod = files.length) :
    loadBatch fs num (files.map .str) shape d 3 = .ok
      ⟨(sh, T.map (fun t => padTo (maxRows T) 3 (t.vals.map (List.take 3)))),
       (sh, T.map (fun t => padTo (maxRows T) (w - 3) (t.vals.map (List.drop 3)))),
       (sh, T.map (fun t => t.vals.length))⟩ := by
  have hlen : files.length = T.length := by simpa using congrArg List.length hfiles
  have hfits : Fits shape T.length sh := by
    rcases hsh with ⟨rfl, rfl⟩ | ⟨rfl, hp⟩
    · exact ⟨by simp [hlen], Or.inr ⟨[], [], files.length, by simp, by simp, by simp⟩⟩
    · exact ⟨by rw [hp, hlen], Or.inl rfl⟩
  have hchk : ¬ (shape ≠ [-1] ∧ shape.prod ≠ ((files.map PathArg.str).length : ℤ)) := by
    rintro ⟨h1, h2⟩
    rcases hsh with ⟨rfl, rfl⟩ | ⟨rfl, hp⟩
    · exact h1 rfl
    · apply h2
      rw [List.length_map, ← hp]
      clear * -
      induction sh with
      | nil => simp
      | cons a l ih => rw [List.map_cons, List.prod_cons, List.prod_cons, ih, Nat.cast_mul]
  have hload : loadAll (fun f => loadTensor fs num f d 3) (files.map .str) =
      .ok (T.map (fun t => (t.vals.map (List.take 3), t.vals.map (List.drop 3)))) := by
    apply loadAll_ok
    rw [List.map_map]
    clear hchk hfits hsh hlen hT
    induction files generalizing T with
    | nil => cases T with
      | nil => rfl
      | cons t T => simp at hfiles
    | cons f files ih => cases T with
      | nil => simp at hfiles
      | cons t T =>
        simp only [List.map_cons, List.cons.injEq] at hfiles ⊢
        have ht := hok t (by simp)
        exact ⟨C49_table_partial fs num f d 3 w t.rows t.vals ht.clean ht.width ht.ne h3 (by omega) h3
          ht.reads hfiles.1, ih T hfiles.2 (fun t' h' => hok t' (by simp [h']))⟩
  obtain ⟨t0, T', rfl⟩ : ∃ t0 T', T = t0 :: T' := by
    cases T with
    | nil => exact absurd rfl hT
    | cons a l => exact ⟨a, l, rfl⟩
  have hw : ∀ t ∈ t0 :: T', ∀ v ∈ t.vals, v.length = w := fun t ht => (hok t ht).reads.width w (hok t ht).width
  have hne0 : t0.vals ≠ [] := by
    intro e
    have := (hok t0 (by simp)).reads.length
    rw [e] at this
    exact (hok t0 (by simp)).ne (List.length_eq_zero_iff.1 this.symm)
  have hV : maxRows (t0 :: T') ≠ 0 := by
    have := le_foldr_max ((t0 :: T').map (fun t => t.vals.length)) t0.vals.length (by simp)
    have h0 : t0.vals.length ≠ 0 := fun e => hne0 (List.length_eq_zero_iff.1 e)
    unfold maxRows
    omega
  unfold loadBatch
  rw [if_neg hchk, hload]
  set xs := (t0 :: T').map (fun t => (t.vals.map (List.take 3), t.vals.map (List.drop 3))) with hxs
  have hsizes : xs.map (fun y => y.1.length) = (t0 :: T').map (fun t => t.vals.length) := by
    rw [hxs, List.map_map]
    exact List.map_congr_left (fun t _ => by simp)
  have hfd : ((t0.vals.map (List.drop 3)).head?.map List.length).getD 0 = w - 3 := by
    rcases hv : t0.vals with _ | ⟨v, vs⟩
    · exact absurd hv hne0
    · have := hw t0 (by simp) v (by rw [hv]; simp)
      simp [this]
  have hpad := padAll_ok (maxRows (t0 :: T')) 3 (w - 3) xs
    (by
      intro x hx r hr
      obtain ⟨t, ht, rfl⟩ := List.mem_map.1 hx
      obtain ⟨v, hv, rfl⟩ := List.mem_map.1 hr
      rw [List.length_take, hw t ht v hv]; omega)
    (by
      intro x hx r hr
      obtain ⟨t, ht, rfl⟩ := List.mem_map.1 hx
      obtain ⟨v, hv, rfl⟩ := List.mem_map.1 hr
      rw [List.length_drop, hw t ht v hv])
    (by
      intro x hx
      obtain ⟨t, ht, rfl⟩ := List.mem_map.1 hx
      simp)
  have hle : ∀ t ∈ t0 :: T', t.vals.length ≤ maxRows (t0 :: T') := fun t ht =>
    le_foldr_max _ _ (List.mem_map_of_mem (f := fun t : TableFile K => t.vals.length) ht)
  have hs1 : stackReshape (maxRows (t0 :: T')) 3 shape (xs.map (fun x => padTo (maxRows (t0 :: T')) 3 x.1)) =
      .ok (sh, xs.map (fun x => padTo (maxRows (t0 :: T')) 3 x.1)) :=
    stackReshape_ok (by simpa [hxs] using hfits) (fun _ => hV) (fun _ => by omega) (by
      intro t ht
      obtain ⟨x, hx, rfl⟩ := List.mem_map.1 ht
      obtain ⟨t', ht', rfl⟩ := List.mem_map.1 hx
      exact padTo_length _ _ _ (by simpa using hle t' ht'))
  have hs2 : stackReshape (maxRows (t0 :: T')) (w - 3) shape
      (xs.map (fun x => padTo (maxRows (t0 :: T')) (w - 3) x.2)) =
      .ok (sh, xs.map (fun x => padTo (maxRows (t0 :: T')) (w - 3) x.2)) :=
    stackReshape_ok (by simpa [hxs] using hfits) (fun _ => hV) (fun _ => by omega) (by
      intro t ht
      obtain ⟨x, hx, rfl⟩ := List.mem_map.1 ht
      obtain ⟨t', ht', rfl⟩ := List.mem_map.1 hx
      exact padTo_length _ _ _ (by simpa using hle t' ht'))
  have hxs' : xs = (t0.vals.map (List.take 3), t0.vals.map (List.drop 3)) ::
      T'.map (fun t => (t.vals.map (List.take 3), t.vals.map (List.drop 3))) := rfl
  rw [hxs'] at hsizes hpad hs1 hs2 ⊢
  dsimp only
  have hVe : (((t0.vals.map (List.take 3), t0.vals.map (List.drop 3)) ::
      T'.map (fun t => (t.vals.map (List.take 3), t.vals.map (List.drop 3)))).map
        (fun y => y.1.length)).foldr max 0 = maxRows (t0 :: T') := by
    rw [hsizes]; rfl
  rw [hVe, hfd, hpad]
  dsimp only
  rw [hs1]
  dsimp only
  rw [hs2]
  dsimp only
  rw [hsizes, List.length_map, reshape_fits hfits]
  simp only [List.map_cons, List.map_map]
  rfl

/-- **C51, rejected shapes.** A batch shape other than `[-1]` whose product is not
the number of files raises `ValueError`, before any file is read. -/
theorem C51_shape_rejected {K : Type*} [Zero K] (fs : String → Option (List Char)) (num : List Char → Option K)
    (files : List PathArg) (shape : List ℤ) (d : List Char) (pd : ℕ) (h1 : shape ≠ [-1])
    (h2 : shape.prod ≠ (files.length : ℤ)) : loadBatch fs num files shape d pd = .error .valueError := by
  unfold loadBatch
  rw [if_pos ⟨h1, h2⟩]

theorem loadTensor_width {K : Type*} (fs : String → Option (List Char)) (num : List Char → Option K)
    (f : PathArg) (d : List Char) (p ft : List (List K)) (h : loadTensor fs num f d 3 = .ok (p, ft)) :
    p ≠ [] ∧ ∀ r ∈ p, r.length = 3 := by
  unfold loadTensor at h
  split at h
  · cases h
  · split at h
    · cases h
    · rename_i t _ rows _
      split at h
      · cases h
      · rename_i hr1
        split at h
        · cases h
        · split at h
          · cases h
          · rename_i p' hp
            split at h
            · cases h
            · rename_i f' hf
              cases h
              -- a line with more than three fields exists
              have hfl : (rawFeatures 3 rows).flatten ≠ [] := by
                intro e
                unfold toNumberTensor at hf
                rw [e] at hf
                split at hf
                · cases hf
                · simp at hf
              obtain ⟨r0, hr0, hlen0⟩ : ∃ r ∈ rows, 3 < r.length := by
                by_contra hcon
                push Not at hcon
                exact hfl (by rw [rawFeatures_narrow hcon]; rfl)
              have hrect : ∀ r ∈ rawPoints 3 rows, r.length = 3 := by
                intro r hr
                have hrc : rectangular (rawPoints 3 rows) = true := by simpa using hr1
                rw [(rectangular_iff _).1 hrc r hr (r0.take 3) (List.mem_map_of_mem hr0), List.length_take]
                omega
              have hread : Reads num (rawPoints 3 rows) p := by
                unfold toNumberTensor at hp
                split at hp
                · cases hp
                · split at hp
                  · cases hp
                  · split at hp
                    · cases hp
                    · rename_i v hv
                      cases hp
                      exact (parseRows_iff _ _ _).1 hv
              refine ⟨fun e => ?_, hread.width 3 hrect⟩
              have := hread.length
              rw [e] at this
              have h0 : (rawPoints 3 rows).length = rows.length := by simp [rawPoints]
              rw [h0] at this
              have := List.length_eq_zero_iff.1 this.symm
              rw [this] at hr0
              cases hr0

theorem loadAll_mem {α : Type*} (load : PathArg → Except Err α) (files : List PathArg) (xs : List α)
    (h : loadAll load files = .ok xs) : ∀ x ∈ xs, ∃ f, load f = .ok x := by
  induction files generalizing xs with
  | nil => cases h; simp
  | cons f fs ih =>
    rw [loadAll] at h
    split at h
    · cases h
    · rename_i y hy
      split at h
      · cases h
      · rename_i ys hys
        cases h
        intro x hx
        rcases List.mem_cons.1 hx with rfl | hx
        · exact ⟨f, hy⟩
        · exact ih ys hys x hx

/-- **C51, other dimensions.** With a `point_dimension` other than 3 the loader
always raises: the files are read with three coordinates. -/
theorem C51_point_dimension_raises {K : Type*} [Zero K] (fs : String → Option (List Char))
    (num : List Char → Option K) (files : List PathArg) (shape : List ℤ) (d : List Char) (pd : ℕ) (h : pd ≠ 3) :
    ∃ e, loadBatch fs num files shape d pd = .error e := by
  unfold loadBatch
  split
  · exact ⟨_, rfl⟩
  · split
    · exact ⟨_, rfl⟩
    · exact ⟨_, rfl⟩
    · rename_i x xs hx
      obtain ⟨f, hf⟩ := loadAll_mem _ _ _ hx x (by simp)
      obtain ⟨p, ft⟩ := x
      obtain ⟨hne, hw⟩ := loadTensor_width fs num f d p ft hf
      dsimp only
      rw [padAll]
      have : ∀ V, padRows V pd p = .error .invalidArgument := by
        intro V
        unfold padRows
        rw [if_neg]
        intro hall
        obtain ⟨r, hr⟩ := List.exists_mem_of_ne_nil p hne
        exact h ((hall r hr).symm.trans (hw r hr))
      rw [this]
      exact ⟨_, rfl⟩

/-- A file system with two files. -/
def twoFiles (a b : String) : String → Option (List Char) :=
  fun s => if s = "a" then some a.toList else if s = "b" then some b.toList else none

/-- The hypotheses of `C51_batch_partial` are met by a batch of two files with two
lines and one line. -/
example : loadBatch (twoFiles "1,2,3,4\n5,6,7,8\n" "9,10,11,12\n") decNum [.str "a", .str "b"] [-1] [','] 3 =
    .ok ⟨([2], [[[1, 2, 3], [5, 6, 7]], [[9, 10, 11], [0, 0, 0]]]), ([2], [[[4], [8]], [[12], [0]]]),
      ([2], [2, 1])⟩ := by decide

example : (⟨[[['9'], ['1', '0'], ['1', '1'], ['1', '2']]], [[9, 10, 11, 12]]⟩ : TableFile ℕ).Ok decNum [','] 4 :=
  ⟨⟨by decide, by decide, by decide, by decide⟩, by decide, by decide, by unfold Reads; decide⟩

/-- **C51 fails** for planar points. -/
theorem C51_point_dimension_false :
    ¬ ∀ (fs : String → Option (List Char)) (num : List Char → Option ℕ) (files : List String)
      (T : List (TableFile ℕ)) (d : List Char) (w pd : ℕ), files.map fs = T.map (fun t => some (textOf d t.rows)) →
      T ≠ [] → (∀ t ∈ T, t.Ok num d w) → 0 < pd → pd < w → 3 < w →
      ∃ b, loadBatch fs num (files.map .str) [-1] d pd = .ok b := by
  intro h
  obtain ⟨b, hb⟩ := h (oneFile "1,2,3,4\n") decNum ["f"] [⟨[[['1'], ['2'], ['3'], ['4']]], [[1, 2, 3, 4]]⟩] [','] 4 2
    (by decide) (by decide)
    (by
      intro t ht
      simp only [List.mem_singleton] at ht
      subst ht
      exact ⟨⟨by decide, by decide, by decide, by decide⟩, by decide, by decide, by unfold Reads; decide⟩)
    (by decide) (by decide) (by decide)
  obtain ⟨e, he⟩ := C51_point_dimension_raises (oneFile "1,2,3,4\n") decNum (["f"].map .str) [-1] [','] 2 (by decide)
  rw [he] at hb
  cases hb

/-! ### From the batch to a point cloud -/

theorem filter_repeat {α : Type*} (L : List (List α)) (k b : ℕ) (hb : b < L.length) :
    ((((L.map List.length).zipIdx k).flatMap (fun p => List.replicate p.1 p.2)).zip L.flatten |>.filter
      (fun q => decide (q.1 = k + b))).map (·.2) = L[b] := by
  induction L generalizing k b with
  | nil => simp at hb
  | cons l L ih =>
    rw [List.map_cons, List.zipIdx_cons, List.flatMap_cons, List.flatten_cons,
      List.zip_append (by simp), List.filter_append, List.map_append]
    have h1 : ∀ (c : ℕ) (l : List α) (n : ℕ), n = l.length →
        (((List.replicate n c).zip l).filter (fun q => decide (q.1 = k + b))).map (·.2) =
          if c = k + b then l else [] := by
      intro c l
      induction l with
      | nil => intro n hn; simp
      | cons x l ih2 =>
        intro n hn
        subst hn
        have := ih2 l.length rfl
        rw [List.length_cons, List.replicate_succ, List.zip_cons_cons, List.filter_cons]
        by_cases hc : c = k + b
        · simp only [hc, decide_true, if_true, List.map_cons] at this ⊢
          rw [this]
        · simp only [hc, decide_false, if_false] at this ⊢
          simpa using this
    have h2 : ∀ (M : List (List α)) (j : ℕ), k + b < j →
        (((((M.map List.length).zipIdx j).flatMap (fun p => List.replicate p.1 p.2)).zip M.flatten).filter
          (fun q => decide (q.1 = k + b))).map (·.2) = [] := by
      intro M
      induction M with
      | nil => intro j _; simp
      | cons m M ih3 =>
        intro j hj
        rw [List.map_cons, List.zipIdx_cons, List.flatMap_cons, List.flatten_cons,
          List.zip_append (by simp), List.filter_append, List.map_append, ih3 (j + 1) (by omega), h1 _ _ _ rfl,
          if_neg (by omega)]
        rfl
    rw [h1 _ _ _ rfl]
    cases b with
    | zero =>
      rw [if_pos (by simp), h2 L (k + 1) (by omega)]
      simp
    | succ b =>
      rw [if_neg (by show ¬ k = k + (b + 1); omega)]
      have := ih (k + 1) b (by simpa using hb)
      rw [show k + 1 + b = k + (b + 1) by omega] at this
      rw [List.nil_append]
      exact this

/-- **C51, point cloud.** A point cloud built from padded blocks and sizes — such
as those the loader returns — gives back for element `b` exactly the first
`sizes[b]` rows of block `b`; for the loader these are the points of file `b`. -/
theorem C51_point_cloud {α : Type*} (sh : List ℕ) (V : ℕ) (blocks : List (List α)) (sizes : List ℕ)
    (hs : sizes.length = sh.prod) (hb : blocks.length = sh.prod) (hV : ∀ l ∈ blocks, l.length = V)
    (hle : ∀ s ∈ sizes, s ≤ V) :
    ∃ o, CloudObj.newPadded sh V blocks (some sizes) none = .ok o ∧
      ∀ (b : ℕ) (h1 : b < blocks.length) (h2 : b < sizes.length),
        o.getPointsId b = .ok ((blocks[b]).take sizes[b]) := by
  have hlen : blocks.length = sizes.length := by rw [hb, hs]
  set L := List.zipWith (fun (l : List α) (s : ℕ) => l.take s) blocks sizes with hL
  have hfl : flattenRows blocks sizes = L.flatten := by
    unfold flattenRows
    rw [List.flatMap_def, hL]
    congr 1
    rw [List.zip, List.map_zipWith]
  have hsz : L.map List.length = sizes := by
    apply List.ext_getElem
    · simp [hL, hlen]
    · intro i hi1 hi2
      have h1 : i < blocks.length := by omega
      have := hV _ (List.getElem_mem h1)
      have := hle _ (List.getElem_mem hi2)
      simp [hL]
      omega
  have hl : (repeatRange sizes).length = (flattenRows blocks sizes).length := by
    rw [repeatRange_length, hfl, List.length_flatten, hsz]
  refine ⟨⟨(⟨flattenRows blocks sizes, repeatRange sizes, sh.prod⟩ : RawCloud α).toCloud hl,
      some (sh, sizes), some sh, some sh, some (.padded sh sizes V)⟩, by simp [CloudObj.newPadded, hl], ?_⟩
  intro b h1 h2
  unfold CloudObj.getPointsId
  rw [if_neg (by
    have : b < sh.prod := by omega
    show ¬ ((b : ℤ) > (sh.prod : ℤ))
    omega)]
  congr 1
  have key : ∀ (ids : List ℕ) (flat : List α) (h : ids.length = flat.length),
      ((List.finRange flat.length).filter (fun i => ((ids[i.val]'(by rw [h]; exact i.isLt) : ℕ) : ℤ) = (b : ℤ))).map
        (fun i => flat[i]) = ((ids.zip flat).filter (fun q => decide (q.1 = b))).map (·.2) := by
    intro ids flat h
    have e : ids.zip flat = (List.finRange flat.length).map
        (fun i => (ids[i.val]'(by rw [h]; exact i.isLt), flat[i])) := by
      apply List.ext_getElem
      · simp [h]
      · intro i hi1 hi2
        simp
    rw [e, List.filter_map, List.map_map]
    congr 1
    apply List.filter_congr
    intro i _
    simp
  refine (key _ _ hl).trans ?_
  have hbL : b < L.length := by simp [hL]; omega
  have := filter_repeat L 0 b hbL
  rw [hsz, Nat.zero_add] at this
  rw [hfl]
  refine Eq.trans ?_ (this.trans ?_)
  · rfl
  · simp [hL]

/-! ### C80: meshes -/

/-- **C80.** For meshes given by their vertices and a batch shape whose product is
the number of meshes, or with one entry -1 that makes the product right, the mesh
loader returns every vertex list followed by zero rows up to the largest mesh and
the vertex counts as sizes, in the requested shape.  With an entry -1 at least
one mesh must have a vertex. -/
theorem C80_mesh_batch {K : Type*} [Zero K] (meshes : List (List (List K))) (shape : List ℤ) (sh : List ℕ)
    (hne : meshes ≠ []) (h3 : ∀ m ∈ meshes, ∀ r ∈ m, r.length = 3) (hf : Fits shape meshes.length sh)
    (hv : -1 ∈ shape → ∃ m ∈ meshes, m ≠ []) :
    meshBatch meshes shape = .ok
      ((sh, meshes.map (padTo ((meshes.map List.length).foldr max 0) 3)), sh, meshes.map List.length) := by
  set V := (meshes.map List.length).foldr max 0 with hV
  have hload : ∀ ms : List (List (List K)), (∀ m ∈ ms, ∀ r ∈ m, r.length = 3) →
      meshBatch.loadAllRows V ms = .ok (ms.map (padTo V 3)) := by
    intro ms
    induction ms with
    | nil => intro _; rfl
    | cons m ms ih =>
      intro h
      rw [meshBatch.loadAllRows, padRows_ok V 3 m (h m (by simp)), ih (fun m' h' => h m' (by simp [h']))]
      rfl
  have hst : stackReshape V 3 shape (meshes.map (padTo V 3)) = .ok (sh, meshes.map (padTo V 3)) := by
    refine stackReshape_ok (by simpa using hf) ?_ (fun _ => by omega) ?_
    · intro hm
      obtain ⟨m, hm, hmne⟩ := hv hm
      have := le_foldr_max (meshes.map List.length) m.length (List.mem_map_of_mem hm)
      have : m.length ≠ 0 := fun e => hmne (List.length_eq_zero_iff.1 e)
      omega
    · intro t ht
      obtain ⟨m, hm, rfl⟩ := List.mem_map.1 ht
      exact padTo_length _ _ _ (le_foldr_max _ _ (List.mem_map_of_mem hm))
  unfold meshBatch
  dsimp only
  rw [← hV, hload meshes h3]
  obtain ⟨m0, ms, rfl⟩ : ∃ m0 ms, meshes = m0 :: ms := by
    cases meshes with
    | nil => exact absurd rfl hne
    | cons a l => exact ⟨a, l, rfl⟩
  have hst' := hst
  rw [List.map_cons] at hst' ⊢
  dsimp only
  rw [hst']
  dsimp only
  rw [List.length_map, reshape_fits hf]

/-- **C80, rejected shapes.** If the loader returns, the resulting shapes have as
many entries as there are meshes. -/
theorem C80_shape_product {K : Type*} [Zero K] (meshes : List (List (List K))) (shape : List ℤ)
    (p : List ℕ × List (List (List K))) (ss sizes : List ℕ) (h : meshBatch meshes shape = .ok (p, ss, sizes)) :
    ss.prod = meshes.length ∧ sizes = meshes.map List.length := by
  unfold meshBatch at h
  dsimp only at h
  split at h
  · cases h
  · cases h
  · split at h
    · cases h
    · split at h
      · cases h
      · rename_i hs
        cases h
        refine ⟨?_, rfl⟩
        rw [List.length_map] at hs
        exact reshape_prod hs

example : meshBatch [[[(1 : ℤ), 2, 3]], [], [[4, 5, 6], [7, 8, 9]], [[1, 1, 1]]] [2, -1] =
    .ok (([2, 2], [[[1, 2, 3], [0, 0, 0]], [[0, 0, 0], [0, 0, 0]], [[4, 5, 6], [7, 8, 9]], [[1, 1, 1], [0, 0, 0]]]),
      [2, 2], [1, 0, 2, 1]) := by decide

end PC
