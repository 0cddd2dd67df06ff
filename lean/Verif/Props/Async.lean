import Verif.Async
import Verif.Props.CudaLimit
import Verif.Props.CudaSampling
import Verif.Props.CudaStore

/-!
# C122: the results do not depend on the timing of host and device
-/

set_option linter.unusedVariables false
set_option linter.unusedSectionVars false

namespace PC

section
variable {A V S : Type} [DecidableEq A]

/-! ### a criterion -/

/-- With uploads of `up` and downloads to `dn` pending: the host does not touch buffers the
stream still uses, and returns (unless `quiet`) only when the stream has read all of
them. -/
def WellSync (quiet : Prop) : Set A → Set A → HostProg A V S → Prop
  | up, _, .ret => quiet ∨ up = ∅
  | up, dn, .launch _ p => WellSync quiet up dn p
  | up, dn, .write a _ p => a ∉ up ∧ a ∉ dn ∧ WellSync quiet up dn p
  | up, dn, .upload a _ p => WellSync quiet (insert a up) dn p
  | up, dn, .download a _ p => WellSync quiet up (insert a dn) p
  | _, _, .sync p => WellSync quiet ∅ ∅ p
  | up, dn, .read a p => a ∉ dn ∧ ∀ v, WellSync quiet up dn (p v)

theorem WellSync.mono {quiet : Prop} {p : HostProg A V S} : ∀ {up up' dn dn' : Set A}, WellSync quiet up dn p →
    up' ⊆ up → dn' ⊆ dn → WellSync quiet up' dn' p := by
  induction p with
  | ret =>
    intro up up' dn dn' h hu hd
    rcases h with h | h
    · exact Or.inl h
    · exact Or.inr (Set.subset_eq_empty hu h)
  | launch op p ih => intro up up' dn dn' h hu hd; exact ih h hu hd
  | write a v p ih =>
    intro up up' dn dn' h hu hd
    exact ⟨fun e => h.1 (hu e), fun e => h.2.1 (hd e), ih h.2.2 hu hd⟩
  | upload a put p ih => intro up up' dn dn' h hu hd; exact ih h (Set.insert_subset_insert hu) hd
  | download a get p ih => intro up up' dn dn' h hu hd; exact ih h hu (Set.insert_subset_insert hd)
  | sync p ih => intro up up' dn dn' h hu hd; exact h
  | read a p ih =>
    intro up up' dn dn' h hu hd
    exact ⟨fun e => h.1 (hd e), fun v => ih v (h.2 v) hu hd⟩

/-- The stream executes a queue. -/
inductive Drain : List (StreamOp A V S) → (A → V) × S → (A → V) × S → Prop
  | nil (s : (A → V) × S) : Drain [] s s
  | cons {o : StreamOp A V S} {q : List (StreamOp A V S)} {s s1 s2 : (A → V) × S} (h : o.Exec s s1)
      (next : Drain q s1 s2) : Drain (o :: q) s s2

theorem Drain.snoc_inv {q : List (StreamOp A V S)} {o : StreamOp A V S} : ∀ {s s2 : (A → V) × S},
    Drain (q ++ [o]) s s2 → ∃ s1, Drain q s s1 ∧ o.Exec s1 s2 := by
  induction q with
  | nil =>
    intro s s2 h
    cases h with
    | cons h next => cases next; exact ⟨s, .nil _, h⟩
  | cons x q ih =>
    intro s s2 h
    cases h with
    | cons h next =>
      obtain ⟨s1, h1, h2⟩ := ih next
      exact ⟨s1, .cons h h1, h2⟩

theorem uploadsOf_cons (o : StreamOp A V S) (q : List (StreamOp A V S)) : uploadsOf q ⊆ uploadsOf (o :: q) := by
  rintro a ⟨put, h⟩
  exact ⟨put, List.mem_cons_of_mem _ h⟩

theorem downloadsOf_cons (o : StreamOp A V S) (q : List (StreamOp A V S)) : downloadsOf q ⊆ downloadsOf (o :: q) := by
  rintro a ⟨get, h⟩
  exact ⟨get, List.mem_cons_of_mem _ h⟩

/-- A buffer no work refers to can be filled before or after. -/
theorem Drain.write {q : List (StreamOp A V S)} {a : A} {v : V} (hu : a ∉ uploadsOf q) (hd : a ∉ downloadsOf q) :
    ∀ {h : A → V} {d : S} {s : (A → V) × S}, Drain q (Function.update h a v, d) s →
      ∃ h1, Drain q (h, d) (h1, s.2) ∧ s.1 = Function.update h1 a v := by
  induction q with
  | nil => intro h d s hs; cases hs; exact ⟨h, .nil _, rfl⟩
  | cons o q ih =>
    have hu' : a ∉ uploadsOf q := fun e => hu (uploadsOf_cons o q e)
    have hd' : a ∉ downloadsOf q := fun e => hd (downloadsOf_cons o q e)
    intro h d s hs
    cases hs with
    | cons he next =>
      cases he with
      | run hop =>
        obtain ⟨h1, h2, h3⟩ := ih hu' hd' next
        exact ⟨h1, .cons (.run hop) h2, h3⟩
      | up b put =>
        have hne : b ≠ a := by
          rintro rfl
          exact hu ⟨put, by simp⟩
        rw [Function.update_of_ne hne] at next
        obtain ⟨h1, h2, h3⟩ := ih hu' hd' next
        exact ⟨h1, .cons (.up b put h d) h2, h3⟩
      | down b get =>
        have hne : b ≠ a := by
          rintro rfl
          exact hd ⟨get, by simp⟩
        rw [Function.update_comm hne.symm] at next
        obtain ⟨h1, h2, h3⟩ := ih hu' hd' next
        exact ⟨h1, .cons (.down b get h d) h2, h3⟩

/-- Buffers without pending download keep their contents. -/
theorem Drain.host {q : List (StreamOp A V S)} {a : A} (hd : a ∉ downloadsOf q) :
    ∀ {s s' : (A → V) × S}, Drain q s s' → s'.1 a = s.1 a := by
  induction q with
  | nil => intro s s' hs; cases hs; rfl
  | cons o q ih =>
    have hd' : a ∉ downloadsOf q := fun e => hd (downloadsOf_cons o q e)
    intro s s' hs
    cases hs with
    | cons he next =>
      rw [ih hd' next]
      cases he with
      | run hop => rfl
      | up b put => rfl
      | down b get =>
        have hne : a ≠ b := by
          rintro rfl
          exact hd ⟨get, by simp⟩
        exact Function.update_of_ne hne _ _

/-- Without pending uploads the device does not depend on the host buffers. -/
theorem Drain.anyHost {q : List (StreamOp A V S)} (hu : uploadsOf q = ∅) :
    ∀ {h h' : A → V} {d : S} {s : (A → V) × S}, Drain q (h', d) s → ∃ h1, Drain q (h, d) (h1, s.2) := by
  induction q with
  | nil => intro h h' d s hs; cases hs; exact ⟨h, .nil _⟩
  | cons o q ih =>
    have hu' : uploadsOf q = ∅ := Set.subset_eq_empty (uploadsOf_cons o q) hu
    intro h h' d s hs
    cases hs with
    | cons he next =>
      cases he with
      | run hop =>
        obtain ⟨h1, h2⟩ := ih hu' (h := h) next
        exact ⟨h1, .cons (.run hop) h2⟩
      | up b put =>
        exact absurd (show b ∈ uploadsOf (.up b put :: q) from ⟨put, by simp⟩) (by rw [hu]; exact Set.notMem_empty _)
      | down b get =>
        obtain ⟨h1, h2⟩ := ih hu' (h := Function.update h b (get d)) next
        exact ⟨h1, .cons (.down b get h d) h2⟩

theorem async_sync {quiet : Prop} {s : AsyncState A V S} {h' : A → V} {d' : S}
    (hs : Relation.ReflTransGen (AsyncStep quiet) s ⟨.ret, h', [], d'⟩) :
    WellSync quiet (uploadsOf s.queue) (downloadsOf s.queue) s.prog →
    ∃ r : (A → V) × S, Drain s.queue (s.host, s.dev) r ∧ SyncResult s.prog r.1 r.2 d' := by
  induction hs using Relation.ReflTransGen.head_induction_on with
  | refl => intro _; exact ⟨_, .nil _, .ret _ _⟩
  | @head s s1 hstep hrest ih =>
    cases hstep with
    | launch op p h q d =>
      intro hw
      obtain ⟨r, h1, h2⟩ := ih (WellSync.mono hw (by
          rintro a ⟨put, hm⟩
          rcases List.mem_append.mp hm with hm | hm
          · exact ⟨put, hm⟩
          · simp at hm) (by
          rintro a ⟨put, hm⟩
          rcases List.mem_append.mp hm with hm | hm
          · exact ⟨put, hm⟩
          · simp at hm))
      obtain ⟨r1, h3, h4⟩ := h1.snoc_inv
      cases h4 with
      | run hop => exact ⟨_, h3, .launch hop h2⟩
    | write a v p h q d =>
      intro hw
      obtain ⟨r, h1, h2⟩ := ih hw.2.2
      obtain ⟨h3, h4, h5⟩ := h1.write hw.1 hw.2.1
      exact ⟨_, h4, .write (by rw [← h5]; exact h2)⟩
    | upload a put p h q d =>
      intro hw
      obtain ⟨r, h1, h2⟩ := ih (WellSync.mono hw (by
          rintro b ⟨put', hm⟩
          rcases List.mem_append.mp hm with hm | hm
          · exact Or.inr ⟨put', hm⟩
          · simp only [List.mem_singleton, StreamOp.up.injEq] at hm
            exact Or.inl hm.1) (by
          rintro b ⟨put', hm⟩
          rcases List.mem_append.mp hm with hm | hm
          · exact ⟨put', hm⟩
          · simp at hm))
      obtain ⟨r1, h3, h4⟩ := h1.snoc_inv
      cases h4 with
      | up => exact ⟨_, h3, .upload h2⟩
    | download a get p h q d =>
      intro hw
      obtain ⟨r, h1, h2⟩ := ih (WellSync.mono hw (by
          rintro b ⟨put', hm⟩
          rcases List.mem_append.mp hm with hm | hm
          · exact ⟨put', hm⟩
          · simp at hm) (by
          rintro b ⟨put', hm⟩
          rcases List.mem_append.mp hm with hm | hm
          · exact Or.inr ⟨put', hm⟩
          · simp only [List.mem_singleton, StreamOp.down.injEq] at hm
            exact Or.inl hm.1))
      obtain ⟨r1, h3, h4⟩ := h1.snoc_inv
      cases h4 with
      | down => exact ⟨_, h3, .download h2⟩
    | sync p h d =>
      intro hw
      obtain ⟨r, h1, h2⟩ := ih (WellSync.mono (up := ∅) (dn := ∅) hw (by rintro b ⟨put', hm⟩; cases hm)
        (by rintro b ⟨put', hm⟩; cases hm))
      exact ⟨r, h1, .sync h2⟩
    | read a p h q d =>
      intro hw
      obtain ⟨r, h1, h2⟩ := ih (hw.2 (h a))
      refine ⟨r, h1, .read ?_⟩
      rw [h1.host hw.1]
      exact h2
    | stream p o h h1 q d d1 he =>
      intro hw
      obtain ⟨r, h2, h3⟩ := ih (WellSync.mono hw (uploadsOf_cons _ _) (downloadsOf_cons _ _))
      exact ⟨r, .cons he h2, h3⟩
    | reuse h h1 q d hq =>
      intro hw
      obtain ⟨r, h2, h3⟩ := ih hw
      have hu : uploadsOf q = ∅ := by
        rcases hw with hw | hw
        · exact hq hw
        · exact hw
      obtain ⟨h4, h5⟩ := h2.anyHost (h := h) hu
      refine ⟨_, h5, ?_⟩
      cases h3
      exact .ret _ _

/-- Well synchronised host code gives what it would give if every call were executed at
once. -/
theorem WellSync.result {quiet : Prop} {p : HostProg A V S} (hp : WellSync quiet ∅ ∅ p) {h : A → V} {d d' : S}
    (hr : AsyncResult quiet p h d d') : SyncResult p h d d' := by
  obtain ⟨h', hr⟩ := hr
  obtain ⟨r, h1, h2⟩ := async_sync hr (WellSync.mono (up := ∅) (dn := ∅) hp (by rintro b ⟨put', hm⟩; cases hm)
        (by rintro b ⟨put', hm⟩; cases hm))
  cases h1
  exact h2

/-- **C122, the eager schedule.** Whatever the host code: executing every call at once is one of the
possible schedules. -/
theorem C122_eager (quiet : Prop) (p : HostProg A V S) (h : A → V) (d d' : S) (hr : SyncResult p h d d') :
    AsyncResult quiet p h d d' := by
  induction hr with
  | ret h d => exact ⟨h, .refl⟩
  | launch hop next ih =>
    obtain ⟨h', ih⟩ := ih
    exact ⟨h', .head (.launch _ _ _ _ _) (.head (.stream _ _ _ _ _ _ _ (.run hop)) ih)⟩
  | write next ih =>
    obtain ⟨h', ih⟩ := ih
    exact ⟨h', .head (.write _ _ _ _ _ _) ih⟩
  | upload next ih =>
    obtain ⟨h', ih⟩ := ih
    exact ⟨h', .head (.upload _ _ _ _ _ _) (.head (.stream _ _ _ _ _ _ _ (.up _ _ _ _)) ih)⟩
  | download next ih =>
    obtain ⟨h', ih⟩ := ih
    exact ⟨h', .head (.download _ _ _ _ _ _) (.head (.stream _ _ _ _ _ _ _ (.down _ _ _ _)) ih)⟩
  | sync next ih =>
    obtain ⟨h', ih⟩ := ih
    exact ⟨h', .head (.sync _ _ _) ih⟩
  | read next ih =>
    obtain ⟨h', ih⟩ := ih
    exact ⟨h', .head (.read _ _ _ _ _) ih⟩

/-- Composition of relations. -/
inductive RunAll : List (S → S → Prop) → S → S → Prop
  | nil (d : S) : RunAll [] d d
  | cons {op : S → S → Prop} {ops : List (S → S → Prop)} {d d1 d2 : S} (h : op d d1) (next : RunAll ops d1 d2) :
      RunAll (op :: ops) d d2

/-- **C122, operations that only launch** (keys, grid, densities, projections, gradients): their effect is
the composition of the kernels, in every schedule. -/
theorem C122_launches (ops : List (S → S → Prop)) (h : A → V) (d d' : S) :
    AsyncResult False (launchProg ops) h d d' ↔ RunAll ops d d' := by
  have hw : ∀ ops : List (S → S → Prop), WellSync False (∅ : Set A) ∅ (launchProg ops : HostProg A V S) := by
    intro ops
    induction ops with
    | nil => exact Or.inr rfl
    | cons op ops ih => exact ih
  constructor
  · intro hr
    have := (hw ops).result hr
    clear hr
    induction ops generalizing d with
    | nil => cases this; exact .nil _
    | cons op ops ih =>
      cases this with
      | launch hop next => exact .cons hop (ih _ next)
  · intro hr
    refine C122_eager _ _ _ _ _ ?_
    induction hr with
    | nil d => exact .ret _ _
    | cons hop _ ih => exact .launch hop ih

end

/-! ### the neighbour search -/

section
variable {A V S : Type}

theorem RunAll.append_iff {l l' : List (S → S → Prop)} {d d' : S} :
    RunAll (l ++ l') d d' ↔ ∃ d1, RunAll l d d1 ∧ RunAll l' d1 d' := by
  induction l generalizing d with
  | nil =>
    constructor
    · intro h; exact ⟨d, .nil _, h⟩
    · rintro ⟨d1, h1, h2⟩; cases h1; exact h2
  | cons op l ih =>
    constructor
    · intro h
      cases h with
      | cons h1 h2 =>
        obtain ⟨d2, h3, h4⟩ := ih.mp h2
        exact ⟨d2, .cons h1 h3, h4⟩
    · rintro ⟨d1, h1, h2⟩
      cases h1 with
      | cons h1 h3 => exact .cons h1 (ih.mpr ⟨d1, h3, h2⟩)

theorem RunAll.cons_iff {op : S → S → Prop} {l : List (S → S → Prop)} {d d' : S} :
    RunAll (op :: l) d d' ↔ ∃ d1, op d d1 ∧ RunAll l d1 d' := by
  constructor
  · intro h; cases h with | cons h1 h2 => exact ⟨_, h1, h2⟩
  · rintro ⟨d1, h1, h2⟩; exact .cons h1 h2

theorem RunAll.nil_iff {d d' : S} : RunAll [] d d' ↔ d' = d := by
  constructor
  · intro h; cases h; rfl
  · rintro rfl; exact .nil _

end

section
variable {D : ℕ} {S : Type} (o : FindOps D S)

/-- Work of one pass with offsets `b`. -/
def FindOps.pass (op : S → S → Prop) (b : List (Fin D → ℤ)) : List (S → S → Prop) :=
  [fun d d' => d' = o.put b d, o.ranges, op]

/-- Work of the search in order. -/
def FindOps.work (blocks : List (List (Fin D → ℤ))) (d d' : S) : Prop :=
  ∃ d1, RunAll (o.zero :: (blocks.flatMap (o.pass o.count) ++ [o.clamp, o.scan])) d d1 ∧
    RunAll (o.alloc (o.total d1) :: (if blocks.length > 1 then blocks.flatMap (o.pass o.store)
      else blocks.map (fun _ => o.store))) d1 d'

theorem launch_iff {A V : Type} [DecidableEq A] {op : S → S → Prop} {p : HostProg A V S} {h : A → V} {d d' : S} :
    SyncResult (.launch op p) h d d' ↔ ∃ d1, op d d1 ∧ SyncResult p h d1 d' := by
  constructor
  · intro hs; cases hs with | launch h1 h2 => exact ⟨_, h1, h2⟩
  · rintro ⟨d1, h1, h2⟩; exact .launch h1 h2

theorem upload_iff {A V : Type} [DecidableEq A] {a : A} {put : V → S → S} {p : HostProg A V S} {h : A → V} {d d' : S} :
    SyncResult (.upload a put p) h d d' ↔ SyncResult p h (put (h a) d) d' := by
  constructor
  · intro hs; cases hs with | upload h2 => exact h2
  · intro h2; exact .upload h2

theorem write_iff {A V : Type} [DecidableEq A] {a : A} {v : V} {p : HostProg A V S} {h : A → V} {d d' : S} :
    SyncResult (.write a v p) h d d' ↔ SyncResult p (Function.update h a v) d d' := by
  constructor
  · intro hs; cases hs with | write h2 => exact h2
  · intro h2; exact .write h2

theorem download_iff {A V : Type} [DecidableEq A] {a : A} {get : S → V} {p : HostProg A V S} {h : A → V} {d d' : S} :
    SyncResult (.download a get p) h d d' ↔ SyncResult p (Function.update h a (get d)) d d' := by
  constructor
  · intro hs; cases hs with | download h2 => exact h2
  · intro h2; exact .download h2

theorem sync_iff {A V : Type} [DecidableEq A] {p : HostProg A V S} {h : A → V} {d d' : S} :
    SyncResult (.sync p) h d d' ↔ SyncResult p h d d' := by
  constructor
  · intro hs; cases hs with | sync h2 => exact h2
  · intro h2; exact .sync h2

theorem read_iff {A V : Type} [DecidableEq A] {a : A} {p : V → HostProg A V S} {h : A → V} {d d' : S} :
    SyncResult (.read a p) h d d' ↔ SyncResult (p (h a)) h d d' := by
  constructor
  · intro hs; cases hs with | read h2 => exact h2
  · intro h2; exact .read h2

theorem ret_iff {A V : Type} [DecidableEq A] {h : A → V} {d d' : S} :
    SyncResult (.ret : HostProg A V S) h d d' ↔ d' = d := by
  constructor
  · intro hs; cases hs; rfl
  · rintro rfl; exact .ret _ _

/-- A loop over passes. -/
theorem passLoop_iff (op : S → S → Prop) (rest : HostProg FindBuf (HostVal D) S) (h : FindBuf → HostVal D) (d' : S)
    (is : List ℕ) (d : S) :
    SyncResult (is.foldr (fun i next =>
      .upload .offsets (fun v d => o.put (v.offs.getD i []) d) (.launch o.ranges (.launch op next))) rest) h d d' ↔
    ∃ d1, RunAll (is.flatMap (fun i => o.pass op ((h .offsets).offs.getD i []))) d d1 ∧ SyncResult rest h d1 d' := by
  induction is generalizing d with
  | nil => simp [RunAll.nil_iff]
  | cons i is ih =>
    rw [List.foldr_cons, upload_iff, launch_iff]
    simp only [launch_iff, ih, List.flatMap_cons, FindOps.pass, List.cons_append, List.nil_append, RunAll.cons_iff]
    constructor
    · rintro ⟨d1, h1, d2, h2, d3, h3, h4⟩
      exact ⟨d3, ⟨_, rfl, d1, h1, d2, h2, h3⟩, h4⟩
    · rintro ⟨d3, ⟨_, rfl, d1, h1, d2, h2, h3⟩, h4⟩
      exact ⟨d1, h1, d2, h2, d3, h3, h4⟩

theorem storeLoop_iff (op : S → S → Prop) (h : FindBuf → HostVal D) (d' : S) (is : List ℕ) (d : S) :
    SyncResult (is.foldr (fun _ next => .launch op next) (.ret : HostProg FindBuf (HostVal D) S)) h d d' ↔
    RunAll (is.map (fun _ => op)) d d' := by
  induction is generalizing d with
  | nil => simp [RunAll.nil_iff, ret_iff]
  | cons i is ih =>
    rw [List.foldr_cons, launch_iff, List.map_cons, RunAll.cons_iff]
    simp only [ih]

theorem range_flatMap_getD {α β : Type*} (l : List α) (x : α) (f : α → List β) :
    (List.range l.length).flatMap (fun i => f (l.getD i x)) = l.flatMap f := by
  have : (List.range l.length).map (fun i => l.getD i x) = l := by
    apply List.ext_getElem
    · simp
    · intro i h1 h2
      simp [List.getD_eq_getElem?_getD, h2]
  conv_rhs => rw [← this]
  rw [List.flatMap_map]

/-- What the host code does if everything is executed at once. -/
theorem FindOps.sync_iff (blocks : List (List (Fin D → ℤ))) (h : FindBuf → HostVal D) (d d' : S) :
    SyncResult (o.prog blocks) h d d' ↔ o.work blocks d d' := by
  unfold FindOps.prog FindOps.work
  rw [launch_iff]
  simp only [write_iff, passLoop_iff, launch_iff, download_iff, PC.sync_iff, read_iff, Function.update_self,
    RunAll.cons_iff, RunAll.append_iff, RunAll.nil_iff]
  have e : ∀ op, (List.range blocks.length).flatMap (fun i => o.pass op (blocks.getD i [])) =
      blocks.flatMap (o.pass op) := fun op => range_flatMap_getD blocks [] (o.pass op)
  have st : ∀ (num : ℕ) (h : FindBuf → HostVal D) (hh : (h .offsets).offs = blocks) (d : S),
      SyncResult (o.storeProg blocks.length num) h d d' ↔ ∃ d1, o.alloc num d d1 ∧
        RunAll (if blocks.length > 1 then blocks.flatMap (o.pass o.store) else blocks.map (fun _ => o.store)) d1 d' := by
    intro num h hh d
    unfold FindOps.storeProg
    rw [launch_iff]
    by_cases hn : blocks.length > 1
    · simp only [if_pos hn, passLoop_iff, hh, e, ret_iff]
      constructor
      · rintro ⟨d1, h1, d2, h2, rfl⟩; exact ⟨d1, h1, h2⟩
      · rintro ⟨d1, h1, h2⟩; exact ⟨d1, h1, d', h2, rfl⟩
    · simp only [if_neg hn, storeLoop_iff]
      have e2 : (List.range blocks.length).map (fun _ => o.store) = blocks.map (fun _ => o.store) := by
        simp [List.map_const']
      rw [e2]
  simp only [e]
  constructor
  · rintro ⟨d1, h1, d2, h2, d3, h3, d4, h4, h5⟩
    obtain ⟨d5, h6, h7⟩ := (st _ _ (by simp) _).mp h5
    exact ⟨d4, ⟨d1, h1, d2, h2, d3, h3, d4, h4, rfl⟩, d5, h6, h7⟩
  · rintro ⟨_, ⟨d1, h1, d2, h2, d3, h3, d4, h4, rfl⟩, d5, h6, h7⟩
    exact ⟨d1, h1, d2, h2, d3, h3, _, h4, (st _ _ (by simp) _).mpr ⟨d5, h6, h7⟩⟩

/-- When the search is well synchronised. -/
theorem FindOps.wellSync (quiet : Prop) (blocks : List (List (Fin D → ℤ))) (hq : quiet ∨ blocks.length ≤ 1) :
    WellSync quiet ∅ ∅ (o.prog blocks) := by
  refine ⟨by simp, by simp, ?_⟩
  have loop : ∀ (op : S → S → Prop) (rest : HostProg FindBuf (HostVal D) S), (∀ up dn, WellSync quiet up dn rest) →
      ∀ (is : List ℕ) up dn, WellSync quiet up dn (is.foldr (fun i next =>
      .upload .offsets (fun v d => o.put (v.offs.getD i []) d) (.launch o.ranges (.launch op next))) rest) := by
    intro op rest hr is
    induction is with
    | nil => intro up dn; exact hr up dn
    | cons i is ih => intro up dn; exact ih _ _
  refine loop _ _ ?_ _ _ _
  intro up dn
  refine ⟨by simp, fun v => ?_⟩
  unfold FindOps.storeProg
  by_cases hn : blocks.length > 1
  · have hq' : quiet := hq.resolve_right (by omega)
    simp only [if_pos hn]
    exact loop _ .ret (fun up dn => Or.inl hq') _ _ _
  · simp only [if_neg hn]
    show WellSync quiet ∅ ∅ _
    generalize List.range blocks.length = is
    induction is with
    | nil => exact Or.inr rfl
    | cons i is ih => exact ih

/-- All schedules of the host code of the search, for at most one block of offsets or if
nobody uses the page-locked memory too early. -/
theorem FindOps.async_iff (quiet : Prop) (blocks : List (List (Fin D → ℤ))) (hq : quiet ∨ blocks.length ≤ 1)
    (h : FindBuf → HostVal D) (d d' : S) :
    AsyncResult quiet (o.prog blocks) h d d' ↔ o.work blocks d d' := by
  rw [← o.sync_iff blocks h]
  exact ⟨(o.wellSync quiet blocks hq).result, C122_eager quiet _ h d d'⟩

end

section
variable {D : ℕ} (Sm R Wc Ws Wn : ℕ) (ranges : List (Fin D → ℤ) → ℕ → ℕ × ℕ) (hit : ℕ → ℕ → Bool)

/-- The range buffers after passes. -/
def FindDev.after (bs : List (List (Fin D → ℤ))) (d : FindDev D) : FindDev D :=
  bs.foldl (fun d b => { d with offs := b, rg := ranges b }) d

theorem FindDev.after_upd (bs : List (List (Fin D → ℤ))) (d : FindDev D) (m : StoreMem) :
    FindDev.after ranges bs { d with mem := m } = { d.after ranges bs with mem := m } := by
  induction bs generalizing d with
  | nil => rfl
  | cons b bs ih => exact ih { d with offs := b, rg := ranges b }

theorem FindDev.after_size (bs : List (List (Fin D → ℤ))) (d : FindDev D) :
    (d.after ranges bs).size = d.size := by
  induction bs generalizing d with
  | nil => rfl
  | cons b bs ih => exact ih _

theorem plain_count (bs : List (List (Fin D → ℤ))) (d d' : FindDev D) :
    RunAll (bs.flatMap ((plainOps Sm R Wc Ws Wn ranges hit).pass (plainOps Sm R Wc Ws Wn ranges hit).count)) d d' ↔
    ∃ cnt, CountPasses Sm R 64 Wc hit (bs.map ranges) d.mem.cnt cnt ∧
      d' = { d.after ranges bs with mem := ⟨cnt, d.mem.writes⟩ } := by
  induction bs generalizing d with
  | nil =>
    rw [List.flatMap_nil, RunAll.nil_iff]
    constructor
    · rintro rfl; exact ⟨_, .nil _, rfl⟩
    · rintro ⟨cnt, h1, rfl⟩; cases h1; rfl
  | cons b bs ih =>
    rw [List.flatMap_cons, RunAll.append_iff]
    simp only [ih]
    simp only [FindOps.pass, plainOps, RunAll.cons_iff, RunAll.nil_iff]
    constructor
    · rintro ⟨_, ⟨_, rfl, _, rfl, d3, ⟨c1, h1, rfl⟩, rfl⟩, cnt, h2, rfl⟩
      refine ⟨cnt, .cons h1 h2, ?_⟩
      rw [FindDev.after_upd ranges bs ⟨b, ranges b, d.total, d.size, d.mem⟩]
      rfl
    · rintro ⟨cnt, h1, rfl⟩
      cases h1 with
      | cons h1 h2 =>
        refine ⟨_, ⟨_, rfl, _, rfl, _, ⟨_, h1, rfl⟩, rfl⟩, cnt, h2, ?_⟩
        rw [FindDev.after_upd ranges bs ⟨b, ranges b, d.total, d.size, d.mem⟩]
        rfl

theorem plain_store (bs : List (List (Fin D → ℤ))) (d d' : FindDev D) :
    RunAll (bs.flatMap ((plainOps Sm R Wc Ws Wn ranges hit).pass (plainOps Sm R Wc Ws Wn ranges hit).store)) d d' ↔
    ∃ m, StorePasses Sm R (storeThreads Sm R 64 Wn) hit (bs.map ranges) d.mem m ∧
      d' = { d.after ranges bs with mem := m } := by
  induction bs generalizing d with
  | nil =>
    rw [List.flatMap_nil, RunAll.nil_iff]
    constructor
    · rintro rfl; exact ⟨_, .nil _, rfl⟩
    · rintro ⟨cnt, h1, rfl⟩; cases h1; rfl
  | cons b bs ih =>
    rw [List.flatMap_cons, RunAll.append_iff]
    simp only [ih]
    simp only [FindOps.pass, plainOps, RunAll.cons_iff, RunAll.nil_iff]
    constructor
    · rintro ⟨_, ⟨_, rfl, _, rfl, d3, ⟨c1, h1, rfl⟩, rfl⟩, cnt, h2, rfl⟩
      refine ⟨cnt, .cons h1 h2, ?_⟩
      rw [FindDev.after_upd ranges bs ⟨b, ranges b, d.total, d.size, d.mem⟩]
      rfl
    · rintro ⟨cnt, h1, rfl⟩
      cases h1 with
      | cons h1 h2 =>
        refine ⟨_, ⟨_, rfl, _, rfl, _, ⟨_, h1, rfl⟩, rfl⟩, cnt, h2, ?_⟩
        rw [FindDev.after_upd ranges bs ⟨b, ranges b, d.total, d.size, d.mem⟩]
        rfl

/-- The work of the search without limit is a run of C58. -/
theorem plain_work (bs : List (List (Fin D → ℤ))) (d : FindDev D) (total : ℕ) (res : StoreMem) :
    (∃ d', (plainOps Sm R Wc Ws Wn ranges hit).work bs d d' ∧ d'.size = total ∧ d'.mem = res) ↔
    FindRun Sm R Wc Ws Wn (bs.map ranges) hit total res := by
  unfold FindOps.work FindRun
  simp only [RunAll.cons_iff, RunAll.append_iff, RunAll.nil_iff, plain_count]
  constructor
  · rintro ⟨d', ⟨_, ⟨_, rfl, _, ⟨cnt, h1, rfl⟩, _, rfl, _, ⟨start, out, t, h2, h3, rfl⟩, rfl⟩, _, rfl, h4⟩, rfl, rfl⟩
    refine ⟨cnt, start, out, h1, ?_, h3, ?_⟩
    · have : d'.size = t := by
        by_cases hn : bs.length > 1
        · rw [if_pos hn, plain_store] at h4
          obtain ⟨m, _, rfl⟩ := h4
          exact FindDev.after_size _ _ _
        · rw [if_neg hn] at h4
          match bs, hn, h4 with
          | [], _, h4 => rw [List.map_nil, RunAll.nil_iff] at h4; subst h4; rfl
          | [b], _, h4 =>
            rw [List.map_cons, RunAll.cons_iff] at h4
            obtain ⟨_, ⟨m, _, rfl⟩, h4⟩ := h4
            rw [List.map_nil, RunAll.nil_iff] at h4; subst h4; rfl
          | _ :: _ :: _, hn, _ => exact absurd (by simp) hn
      rw [this]; exact h2
    · by_cases hn : bs.length > 1
      · rw [if_pos hn, plain_store] at h4
        obtain ⟨m, h5, rfl⟩ := h4
        exact h5
      · rw [if_neg hn] at h4
        match bs, hn, h4 with
        | [], _, h4 => rw [List.map_nil, RunAll.nil_iff] at h4; subst h4; exact .nil _
        | [b], _, h4 =>
          rw [List.map_cons, RunAll.cons_iff] at h4
          obtain ⟨_, ⟨m, h5, rfl⟩, h4⟩ := h4
          rw [List.map_nil, RunAll.nil_iff] at h4; subst h4
          exact .cons h5 (.nil _)
        | _ :: _ :: _, hn, _ => exact absurd (by simp) hn
  · rintro ⟨cnt, start, out, h1, h2, h3, h4⟩
    by_cases hn : bs.length > 1
    · simp only [if_pos hn, plain_store]
      exact ⟨_, ⟨_, ⟨_, rfl, _, ⟨cnt, h1, rfl⟩, _, rfl, _, ⟨start, out, total, h2, h3, rfl⟩, rfl⟩, _, rfl, _, h4, rfl⟩,
        FindDev.after_size _ _ _, rfl⟩
    · match bs, hn, h1, h4 with
      | [], hn, h1, h4 =>
        cases h4
        exact ⟨_, ⟨_, ⟨_, rfl, _, ⟨cnt, h1, rfl⟩, _, rfl, _, ⟨start, out, total, h2, h3, rfl⟩, rfl⟩, _, rfl, .nil _⟩,
          rfl, rfl⟩
      | [b], hn, h1, h4 =>
        cases h4 with
        | cons h4 h5 =>
          cases h5
          exact ⟨_, ⟨_, ⟨_, rfl, _, ⟨cnt, h1, rfl⟩, _, rfl, _, ⟨start, out, total, h2, h3, rfl⟩, rfl⟩, _, rfl,
            .cons ⟨_, h4, rfl⟩ (.nil _)⟩, rfl, rfl⟩
      | _ :: _ :: _, hn, _, _ => exact absurd (by simp) hn

end

section
variable {D : ℕ} (m : ℕ) (ok : LimItem → Prop) (Sm R Wc Ws Wn : ℕ) (ranges : List (Fin D → ℤ) → ℕ → ℕ × ℕ) (hit : ℕ → ℕ → Bool)

/-- The range buffers after passes. -/
def LimDev.after (bs : List (List (Fin D → ℤ))) (d : LimDev D) : LimDev D :=
  bs.foldl (fun d b => { d with offs := b, rg := ranges b }) d

theorem LimDev.after_upd (bs : List (List (Fin D → ℤ))) (d : LimDev D) (cnt : ℕ → ℕ) (mem : LimMem) :
    LimDev.after ranges bs { d with cnt := cnt, mem := mem } = { d.after ranges bs with cnt := cnt, mem := mem } := by
  induction bs generalizing d with
  | nil => rfl
  | cons b bs ih => exact ih { d with offs := b, rg := ranges b }

theorem LimDev.after_size (bs : List (List (Fin D → ℤ))) (d : LimDev D) :
    (d.after ranges bs).size = d.size := by
  induction bs generalizing d with
  | nil => rfl
  | cons b bs ih => exact ih _

theorem limit_count (bs : List (List (Fin D → ℤ))) (d d' : LimDev D) :
    RunAll (bs.flatMap ((limitOps m ok Sm R Wc Ws Wn ranges hit).pass (limitOps m ok Sm R Wc Ws Wn ranges hit).count)) d d' ↔
    ∃ cnt, CountPasses Sm R 64 Wc hit (bs.map ranges) d.cnt cnt ∧
      d' = { d.after ranges bs with cnt := cnt, mem := d.mem } := by
  induction bs generalizing d with
  | nil =>
    rw [List.flatMap_nil, RunAll.nil_iff]
    constructor
    · rintro rfl; exact ⟨_, .nil _, rfl⟩
    · rintro ⟨cnt, h1, rfl⟩; cases h1; rfl
  | cons b bs ih =>
    rw [List.flatMap_cons, RunAll.append_iff]
    simp only [ih]
    simp only [FindOps.pass, limitOps, RunAll.cons_iff, RunAll.nil_iff]
    constructor
    · rintro ⟨_, ⟨_, rfl, _, rfl, d3, ⟨c1, h1, rfl⟩, rfl⟩, cnt, h2, rfl⟩
      refine ⟨cnt, .cons h1 h2, ?_⟩
      rw [LimDev.after_upd ranges bs ⟨b, ranges b, d.total, d.size, d.cnt, d.mem⟩]
      rfl
    · rintro ⟨cnt, h1, rfl⟩
      cases h1 with
      | cons h1 h2 =>
        refine ⟨_, ⟨_, rfl, _, rfl, _, ⟨_, h1, rfl⟩, rfl⟩, cnt, h2, ?_⟩
        rw [LimDev.after_upd ranges bs ⟨b, ranges b, d.total, d.size, d.cnt, d.mem⟩]
        rfl

theorem limit_store (bs : List (List (Fin D → ℤ))) (d d' : LimDev D) :
    RunAll (bs.flatMap ((limitOps m ok Sm R Wc Ws Wn ranges hit).pass (limitOps m ok Sm R Wc Ws Wn ranges hit).store)) d d' ↔
    ∃ mem, LimPasses m ok Sm R (storeThreads Sm R 64 Wn) hit (bs.map ranges) d.mem mem ∧
      d' = { d.after ranges bs with cnt := d.cnt, mem := mem } := by
  induction bs generalizing d with
  | nil =>
    rw [List.flatMap_nil, RunAll.nil_iff]
    constructor
    · rintro rfl; exact ⟨_, .nil _, rfl⟩
    · rintro ⟨cnt, h1, rfl⟩; cases h1; rfl
  | cons b bs ih =>
    rw [List.flatMap_cons, RunAll.append_iff]
    simp only [ih]
    simp only [FindOps.pass, limitOps, RunAll.cons_iff, RunAll.nil_iff]
    constructor
    · rintro ⟨_, ⟨_, rfl, _, rfl, d3, ⟨c1, h1, rfl⟩, rfl⟩, cnt, h2, rfl⟩
      refine ⟨cnt, .cons h1 h2, ?_⟩
      rw [LimDev.after_upd ranges bs ⟨b, ranges b, d.total, d.size, d.cnt, d.mem⟩]
      rfl
    · rintro ⟨cnt, h1, rfl⟩
      cases h1 with
      | cons h1 h2 =>
        refine ⟨_, ⟨_, rfl, _, rfl, _, ⟨_, h1, rfl⟩, rfl⟩, cnt, h2, ?_⟩
        rw [LimDev.after_upd ranges bs ⟨b, ranges b, d.total, d.size, d.cnt, d.mem⟩]
        rfl

/-- The work of the search with limit is a run of C62. -/
theorem limit_work (bs : List (List (Fin D → ℤ))) (d : LimDev D) (total : ℕ) (res : LimMem) :
    (∃ d', (limitOps m ok Sm R Wc Ws Wn ranges hit).work bs d d' ∧ d'.size = total ∧ d'.mem = res) ↔
    LimRun m ok Sm R Wc Ws Wn (bs.map ranges) hit total res := by
  unfold FindOps.work LimRun
  simp only [RunAll.cons_iff, RunAll.append_iff, RunAll.nil_iff, limit_count]
  constructor
  · rintro ⟨d', ⟨_, ⟨_, rfl, _, ⟨cnt, h1, rfl⟩, _, rfl, _, ⟨start, out, t, h2, h3, rfl⟩, rfl⟩, _, rfl, h4⟩, rfl, rfl⟩
    refine ⟨cnt, start, out, h1, ?_, h3, ?_⟩
    · have : d'.size = t := by
        by_cases hn : bs.length > 1
        · rw [if_pos hn, limit_store] at h4
          obtain ⟨mem, _, rfl⟩ := h4
          exact LimDev.after_size _ _ _
        · rw [if_neg hn] at h4
          match bs, hn, h4 with
          | [], _, h4 => rw [List.map_nil, RunAll.nil_iff] at h4; subst h4; rfl
          | [b], _, h4 =>
            rw [List.map_cons, RunAll.cons_iff] at h4
            obtain ⟨_, ⟨mem, _, rfl⟩, h4⟩ := h4
            rw [List.map_nil, RunAll.nil_iff] at h4; subst h4; rfl
          | _ :: _ :: _, hn, _ => exact absurd (by simp) hn
      rw [this]; exact h2
    · by_cases hn : bs.length > 1
      · rw [if_pos hn, limit_store] at h4
        obtain ⟨mem, h5, rfl⟩ := h4
        exact h5
      · rw [if_neg hn] at h4
        match bs, hn, h4 with
        | [], _, h4 => rw [List.map_nil, RunAll.nil_iff] at h4; subst h4; exact .nil _
        | [b], _, h4 =>
          rw [List.map_cons, RunAll.cons_iff] at h4
          obtain ⟨_, ⟨mem, h5, rfl⟩, h4⟩ := h4
          rw [List.map_nil, RunAll.nil_iff] at h4; subst h4
          exact .cons h5 (.nil _)
        | _ :: _ :: _, hn, _ => exact absurd (by simp) hn
  · rintro ⟨cnt, start, out, h1, h2, h3, h4⟩
    by_cases hn : bs.length > 1
    · simp only [if_pos hn, limit_store]
      exact ⟨_, ⟨_, ⟨_, rfl, _, ⟨cnt, h1, rfl⟩, _, rfl, _, ⟨start, out, total, h2, h3, rfl⟩, rfl⟩, _, rfl, _, h4, rfl⟩,
        LimDev.after_size _ _ _, rfl⟩
    · match bs, hn, h1, h4 with
      | [], hn, h1, h4 =>
        cases h4
        exact ⟨_, ⟨_, ⟨_, rfl, _, ⟨cnt, h1, rfl⟩, _, rfl, _, ⟨start, out, total, h2, h3, rfl⟩, rfl⟩, _, rfl, .nil _⟩,
          rfl, rfl⟩
      | [b], hn, h1, h4 =>
        cases h4 with
        | cons h4 h5 =>
          cases h5
          exact ⟨_, ⟨_, ⟨_, rfl, _, ⟨cnt, h1, rfl⟩, _, rfl, _, ⟨start, out, total, h2, h3, rfl⟩, rfl⟩, _, rfl,
            .cons ⟨_, h4, rfl⟩ (.nil _)⟩, rfl, rfl⟩
      | _ :: _ :: _, hn, _, _ => exact absurd (by simp) hn

end

/-! ### sampling -/

section
variable {D : ℕ} {K : Type} [Field K]

theorem sampHead_wellSync (N Wc Ws : ℕ) (keys : ℕ → ℤ) (next : ℕ → HostProg SampBuf ℕ (SampDev D K))
    (h : ∀ n, WellSync False ∅ ∅ (next n)) : WellSync False ∅ ∅ (sampHead N Wc Ws keys next) :=
  ⟨by simp, fun v => h _⟩

theorem sampHead_iff (N Wc Ws : ℕ) (keys : ℕ → ℤ) (next : ℕ → HostProg SampBuf ℕ (SampDev D K)) (P : SampDev D K → Prop)
    (h : SampBuf → ℕ) (d : SampDev D K) :
    (∃ d', SyncResult (sampHead N Wc Ws keys next) h d d' ∧ P d') ↔
    ∃ (n : ℕ) (m : StoreMem), CountKeys N 128 Wc keys (n + 1) ∧
      CompactKernel (isFirstKey keys) N (launchThreads N Ws) m ∧
      ∃ d', SyncResult (next (n + 1)) (Function.update h .keys n) { d with keys := n, firsts := m } d' ∧ P d' := by
  unfold sampHead
  simp only [launch_iff, download_iff, PC.sync_iff, read_iff, Function.update_self]
  constructor
  · rintro ⟨d', ⟨_, rfl, _, ⟨n, h1, rfl⟩, _, ⟨m, h2, rfl⟩, h3⟩, hP⟩
    exact ⟨n, m, h1, h2, d', h3, hP⟩
  · rintro ⟨n, m, h1, h2, d', h3, hP⟩
    exact ⟨d', ⟨_, rfl, _, ⟨n, h1, rfl⟩, _, ⟨m, h2, rfl⟩, h3⟩, hP⟩

theorem countKeys_pos {N B W : ℕ} {keys : ℕ → ℤ} {n : ℕ} (h : CountKeys N B W keys n) : ∃ n', n = n' + 1 := by
  obtain ⟨_, tr, _, _, _, h⟩ := h
  exact ⟨_, h⟩

/-- **C122, cell averages**: the possible results of the operation under all schedules of host
and device are those of the kernels run one after another (C60). -/
theorem C122_average (N Wc Ws Wa : ℕ) (keys : ℕ → ℤ) (nc : Fin D → ℤ) (pts : ℕ → Fin D → K) (h : SampBuf → ℕ)
    (d : SampDev D K) (n : ℕ) (out : ℕ → (Fin D → K) × ℤ) :
    (∃ d', AsyncResult False (averageProg N Wc Ws Wa keys nc pts) h d d' ∧ d'.size = n ∧ d'.avg = out) ↔
    AvgRun N Wc Ws Wa keys nc pts n out := by
  have hw : WellSync False ∅ ∅ (averageProg N Wc Ws Wa keys nc pts) :=
    sampHead_wellSync _ _ _ _ _ (fun n => Or.inr rfl)
  have e : (∃ d', AsyncResult False (averageProg N Wc Ws Wa keys nc pts) h d d' ∧ d'.size = n ∧ d'.avg = out) ↔
      ∃ d', SyncResult (averageProg N Wc Ws Wa keys nc pts) h d d' ∧ d'.size = n ∧ d'.avg = out := by
    constructor
    · rintro ⟨d', h1, h2⟩; exact ⟨d', hw.result h1, h2⟩
    · rintro ⟨d', h1, h2⟩; exact ⟨d', C122_eager _ _ _ _ _ h1, h2⟩
  rw [e]
  unfold averageProg
  rw [sampHead_iff]
  simp only [launch_iff, ret_iff]
  unfold AvgRun
  constructor
  · rintro ⟨n', m, h1, h2, _, ⟨_, rfl, _, ⟨tr, h3, rfl⟩, rfl⟩, rfl, rfl⟩
    exact ⟨m, tr, h1, h2, h3, rfl⟩
  · rintro ⟨m, tr, h1, h2, h3, rfl⟩
    obtain ⟨n', rfl⟩ := countKeys_pos h1
    exact ⟨n', m, h1, h2, _, ⟨_, rfl, _, ⟨tr, h3, rfl⟩, rfl⟩, rfl, rfl⟩

theorem pdLoop_iff (N Wp : ℕ) (keys : ℕ → ℤ) (nc : Fin D → ℤ) (nb : ℕ → List ℕ) (numKeys : ℕ)
    (rest : HostProg SampBuf ℕ (SampDev D K)) (h : SampBuf → ℕ) (d' : SampDev D K) (k c : ℕ) (d : SampDev D K) :
    PdCalls N keys nc nb (fun u => (d.firsts.out u).1) numKeys (launchThreads numKeys Wp) c d.pd →
    (SyncResult ((List.range' c k).foldr (fun c next =>
        .launch (fun d d' => ∃ pm, PdKernel N keys nc nb (fun u => (d.firsts.out u).1) numKeys
          (launchThreads numKeys Wp) c d.pd pm ∧ d' = { d with pd := pm }) next) rest) h d d' →
    ∃ pm, PdCalls N keys nc nb (fun u => (d.firsts.out u).1) numKeys (launchThreads numKeys Wp) (c + k) pm ∧
      SyncResult rest h { d with pd := pm } d') := by
  induction k generalizing c d with
  | zero => intro h1 h2; exact ⟨d.pd, h1, h2⟩
  | succ k ih =>
    intro h1 h2
    rw [List.range'_succ, List.foldr_cons, launch_iff] at h2
    obtain ⟨_, ⟨pm, h3, rfl⟩, h4⟩ := h2
    obtain ⟨pm', h5, h6⟩ := ih (c + 1) { d with pd := pm } (.succ h1 h3) h4
    exact ⟨pm', by rw [show c + (k + 1) = c + 1 + k by omega]; exact h5, h6⟩

theorem pdLoop_of (N Wp : ℕ) (keys : ℕ → ℤ) (nc : Fin D → ℤ) (nb : ℕ → List ℕ) (numKeys : ℕ)
    (h : SampBuf → ℕ) (d' : SampDev D K) (c : ℕ) (d : SampDev D K) (pm : PdMem)
    (hc : PdCalls N keys nc nb (fun u => (d.firsts.out u).1) numKeys (launchThreads numKeys Wp) c pm)
    (rest : HostProg SampBuf ℕ (SampDev D K)) (hr : SyncResult rest h { d with pd := pm } d') :
    SyncResult ((List.range c).foldr (fun c next =>
        .launch (fun d d' => ∃ pm, PdKernel N keys nc nb (fun u => (d.firsts.out u).1) numKeys
          (launchThreads numKeys Wp) c d.pd pm ∧ d' = { d with pd := pm }) next) rest) h
      { d with pd := ⟨fun _ => false, 0⟩ } d' := by
  induction hc generalizing rest with
  | zero => exact hr
  | @succ c m m' h1 hk ih =>
    rw [List.range_succ, List.foldr_append]
    exact ih _ (.launch ⟨m', hk, rfl⟩ hr)

/-- **C122, Poisson disk sampling**: the possible results of the operation under all schedules
of host and device are those of the kernels run one after another (C61). -/
theorem C122_sampling (N Wc Ws Wp Wo : ℕ) (keys : ℕ → ℤ) (nc : Fin D → ℤ) (nb : ℕ → List ℕ) (h : SampBuf → ℕ)
    (d : SampDev D K) (n : ℕ) (out : StoreMem) :
    (∃ d', AsyncResult False (poissonProg N Wc Ws Wp Wo keys nc nb) h d d' ∧ d'.size = n ∧ d'.out = out) ↔
    PdRun N Wc Ws Wp Wo keys nc nb n out := by
  have hw : WellSync False ∅ ∅ (poissonProg N Wc Ws Wp Wo keys nc nb : HostProg SampBuf ℕ (SampDev D K)) := by
    refine sampHead_wellSync _ _ _ _ _ (fun n => ?_)
    show WellSync False ∅ ∅ _
    generalize List.range (2 ^ D) = l
    induction l with
    | nil => exact ⟨by simp, fun _ => Or.inr rfl⟩
    | cons c l ih => exact ih
  have e : (∃ d', AsyncResult False (poissonProg N Wc Ws Wp Wo keys nc nb) h d d' ∧ d'.size = n ∧ d'.out = out) ↔
      ∃ d', SyncResult (poissonProg N Wc Ws Wp Wo keys nc nb) h d d' ∧ d'.size = n ∧ d'.out = out := by
    constructor
    · rintro ⟨d', h1, h2⟩; exact ⟨d', hw.result h1, h2⟩
    · rintro ⟨d', h1, h2⟩; exact ⟨d', C122_eager _ _ _ _ _ h1, h2⟩
  rw [e]
  unfold poissonProg
  rw [sampHead_iff]
  unfold PdRun
  constructor
  · rintro ⟨n', m, h1, h2, d', h3, rfl, rfl⟩
    rw [launch_iff] at h3
    obtain ⟨_, rfl, h3⟩ := h3
    rw [List.range_eq_range'] at h3
    obtain ⟨pm, h4, h5⟩ := pdLoop_iff N Wp keys nc nb (n' + 1) _ _ _ _ _ _ .zero h3
    simp only [launch_iff, download_iff, PC.sync_iff, read_iff, Function.update_self, ret_iff] at h5
    obtain ⟨_, rfl, _, ⟨mo, h6, rfl⟩, rfl⟩ := h5
    rw [Nat.zero_add] at h4
    exact ⟨n' + 1, m, pm, h1, h2, h4, h6, rfl⟩
  · rintro ⟨nk, m, pm, h1, h2, h3, h4, rfl⟩
    obtain ⟨n', rfl⟩ := countKeys_pos h1
    refine ⟨n', m, h1, h2, _, .launch rfl (pdLoop_of N Wp keys nc nb (n' + 1) _ _ _ _ pm h3 _
      (.download (.sync (.read (.launch rfl (.launch ⟨out, h4, rfl⟩ (.ret _ _))))))), ?_, rfl⟩
    rw [Function.update_self]

end

/-! ### the properties of the search -/

section
variable {k : ℕ} {K : Type} [Field K] [LinearOrder K] [IsStrictOrderedRing K] [FloorRing K]

theorem offsetBlocks_pow (D : ℕ) : (offsetBlocks D 1).length = 3 ^ (max (D - 2) 1 - 1) := by
  unfold offsetBlocks numOffsets offsetsPerBlock
  rw [List.length_map, List.length_range]
  obtain ⟨m, hm⟩ : ∃ m, max (D - 2) 1 = m + 1 := ⟨max (D - 2) 1 - 1, by have := le_max_right (D - 2) 1; omega⟩
  rw [hm, show (1 * 2 + 1) * (1 * 2 + 1) ^ (m + 1) = 9 * 3 ^ m by ring, Nat.mul_div_cancel_left _ (by norm_num)]
  simp

/-- **C122, neighbour search**: in two and three dimensions, or if nobody uses the page-locked memory
before the stream has read it, the possible results of the operation under all schedules of
host and device are those of the kernels run one after another (C58). -/
theorem C122_find_kernels_partial (quiet : Prop) (hq : quiet ∨ k ≤ 1) (g : Grid (k + 2) K) (tab : ℤ → ℕ × ℕ)
    (cen : ℕ → ℕ × (Fin (k + 2) → K)) (fuel : ℕ) (hit : ℕ → ℕ → Bool) (Sm R Wc Ws Wn : ℕ)
    (h : FindBuf → HostVal (k + 2)) (d : FindDev (k + 2)) (total : ℕ) (res : StoreMem) :
    (∃ d', AsyncResult quiet ((plainOps Sm R Wc Ws Wn (opRanges fuel g tab cen) hit).prog (offsetBlocks (k + 2) 1)) h d d' ∧
      d'.size = total ∧ d'.mem = res) ↔
    FindRun Sm R Wc Ws Wn ((offsetBlocks (k + 2) 1).map (opRanges fuel g tab cen)) hit total res := by
  have hl : quiet ∨ (offsetBlocks (k + 2) 1).length ≤ 1 := hq.imp_right (fun hk => by
    rw [offsetBlocks_pow]
    have : max (k + 2 - 2) 1 - 1 = 0 := by omega
    rw [this]; simp)
  simp only [FindOps.async_iff _ quiet _ hl]
  exact plain_work Sm R Wc Ws Wn _ hit _ d total res

/-- **C122, neighbour search with limit**, under the same condition. -/
theorem C122_find_limit_partial (quiet : Prop) (hq : quiet ∨ k ≤ 1) (m : ℕ) (ok : LimItem → Prop) (g : Grid (k + 2) K)
    (tab : ℤ → ℕ × ℕ) (cen : ℕ → ℕ × (Fin (k + 2) → K)) (fuel : ℕ) (hit : ℕ → ℕ → Bool) (Sm R Wc Ws Wn : ℕ)
    (h : FindBuf → HostVal (k + 2)) (d : LimDev (k + 2)) (total : ℕ) (res : LimMem) :
    (∃ d', AsyncResult quiet ((limitOps m ok Sm R Wc Ws Wn (opRanges fuel g tab cen) hit).prog (offsetBlocks (k + 2) 1)) h d d' ∧
      d'.size = total ∧ d'.mem = res) ↔
    LimRun m ok Sm R Wc Ws Wn ((offsetBlocks (k + 2) 1).map (opRanges fuel g tab cen)) hit total res := by
  have hl : quiet ∨ (offsetBlocks (k + 2) 1).length ≤ 1 := hq.imp_right (fun hk => by
    rw [offsetBlocks_pow]
    have : max (k + 2 - 2) 1 - 1 = 0 := by omega
    rw [this]; simp)
  simp only [FindOps.async_iff _ quiet _ hl]
  exact limit_work m ok Sm R Wc Ws Wn _ hit _ d total res

/-- **C122, neighbours**: in two and three dimensions (or with the condition on the page-locked
memory) the rows of the output are the pairs within the radius, whatever the schedule. -/
theorem C122_find_partial (quiet : Prop) (hq : quiet ∨ k ≤ 1) (g : Grid (k + 2) K) (tab : ℤ → ℕ × ℕ)
    (ht : BuiltTable g tab) (cen : ℕ → ℕ × (Fin (k + 2) → K)) (rad : Fin (k + 2) → K) (hr : ∀ d, 0 < rad d)
    (hle : ∀ d, rad d ≤ g.cs d) (fuel : ℕ) (hf : Nat.clog 2 g.c.n + 1 ≤ fuel) (S Wc Ws Wn : ℕ) (hWc : 0 < Wc)
    (hWs : 0 < Ws) (hWn : 0 < Wn) (hS : 0 < S) (hone : S ≤ 512 + Ws * 64) (h : FindBuf → HostVal (k + 2))
    (d d' : FindDev (k + 2)) (hrun : AsyncResult quiet ((plainOps S offsetsPerBlock Wc Ws Wn (opRanges fuel g tab cen)
      (opHit g cen (fun d => (rad d)⁻¹))).prog (offsetBlocks (k + 2) 1)) h d d') (s i : ℕ) :
    (∃ j < d'.size, d'.mem.out j = (i, s)) ↔ s < S ∧ ∃ hi : i < g.c.n, g.c.batch (cuPerm g ⟨i, hi⟩) = (cen s).1 ∧
        ∑ e, (((cen s).2 e - g.c.pts (cuPerm g ⟨i, hi⟩) e) / rad e) ^ 2 < 1 := by
  have hfr := (C122_find_kernels_partial quiet hq g tab cen fuel _ S offsetsPerBlock Wc Ws Wn h d d'.size d'.mem).mp
    ⟨d', hrun, rfl, rfl⟩
  have spec := C58_find_neighbors_partial g tab ht cen rad hr hle fuel hf S Wc Ws Wn hWc hWs hWn hS hone d'.size d'.mem hfr
  constructor
  · rintro ⟨j, hj, hout⟩
    have hex : ∃ s', j < d'.mem.cnt s' ∧ s' < S :=
      ⟨S - 1, by rw [(spec (S - 1) (by omega)).2.2.1 (by omega)]; exact hj, by omega⟩
    classical
    have hmin := Nat.find_spec hex
    have hlo : (if Nat.find hex = 0 then 0 else d'.mem.cnt (Nat.find hex - 1)) ≤ j := by
      split
      · exact Nat.zero_le _
      · next e =>
        have := Nat.find_min hex (m := Nat.find hex - 1) (by omega)
        by_contra hlt
        exact this ⟨by omega, by omega⟩
    obtain ⟨e1, e2⟩ := ((spec _ hmin.2).2.2.2.1 i s).mp ⟨j, hlo, hmin.1, hout⟩
    subst e1
    exact ⟨hmin.2, e2⟩
  · rintro ⟨hs, hi⟩
    obtain ⟨j, h1, h2, h3⟩ := ((spec s hs).2.2.2.1 i s).mpr ⟨rfl, hi⟩
    exact ⟨j, lt_of_lt_of_le h2 (spec s hs).2.1, h3⟩

end

/-! ### four dimensions -/

section
variable {D : ℕ} {S : Type} (o : FindOps D S)

theorem eagerLoop (quiet : Prop) (op : S → S → Prop) (rest : HostProg FindBuf (HostVal D) S) (h : FindBuf → HostVal D)
    (is : List ℕ) (d d1 : S) (hr : RunAll (is.flatMap (fun i => o.pass op ((h .offsets).offs.getD i []))) d d1) :
    Relation.ReflTransGen (AsyncStep quiet) ⟨is.foldr (fun i next =>
      .upload .offsets (fun v d => o.put (v.offs.getD i []) d) (.launch o.ranges (.launch op next))) rest, h, [], d⟩
      ⟨rest, h, [], d1⟩ := by
  induction is generalizing d with
  | nil => rw [List.flatMap_nil, RunAll.nil_iff] at hr; subst hr; exact .refl
  | cons i is ih =>
    simp only [List.flatMap_cons, FindOps.pass, List.cons_append, List.nil_append, RunAll.cons_iff] at hr
    obtain ⟨_, rfl, d2, h2, d3, h3, h4⟩ := hr
    refine .head (.upload _ _ _ _ _ _) (.head (.stream _ _ _ _ _ _ _ (.up _ _ _ _)) (.head (.launch _ _ _ _ _)
      (.head (.stream _ _ _ _ _ _ _ (.run h2)) (.head (.launch _ _ _ _ _)
      (.head (.stream _ _ _ _ _ _ _ (.run h3)) (ih d3 h4))))))

/-- The host runs ahead of the stream. -/
theorem aheadLoop (quiet : Prop) (op : S → S → Prop) (h : FindBuf → HostVal D) (d : S) (is : List ℕ)
    (q : List (StreamOp FindBuf (HostVal D) S)) :
    Relation.ReflTransGen (AsyncStep quiet) ⟨is.foldr (fun i next =>
      .upload .offsets (fun v d => o.put (v.offs.getD i []) d) (.launch o.ranges (.launch op next))) .ret, h, q, d⟩
      ⟨.ret, h, q ++ is.flatMap (fun i => [.up .offsets (fun v d => o.put (v.offs.getD i []) d), .run o.ranges, .run op]), d⟩ := by
  induction is generalizing q with
  | nil => simpa using Relation.ReflTransGen.refl
  | cons i is ih =>
    refine .head (.upload _ _ _ _ _ _) (.head (.launch _ _ _ _ _) (.head (.launch _ _ _ _ _) ?_))
    have := ih (q ++ [.up .offsets (fun v d => o.put (v.offs.getD i []) d)] ++ [.run o.ranges] ++ [.run op])
    simpa using this

theorem drainLoop (quiet : Prop) (op : S → S → Prop) (h : FindBuf → HostVal D) (is : List ℕ) (d d1 : S)
    (hr : RunAll (is.flatMap (fun i => o.pass op ((h .offsets).offs.getD i []))) d d1) :
    Relation.ReflTransGen (AsyncStep quiet)
      ⟨.ret, h, is.flatMap (fun i => [.up .offsets (fun v d => o.put (v.offs.getD i []) d), .run o.ranges, .run op]), d⟩
      ⟨.ret, h, [], d1⟩ := by
  induction is generalizing d with
  | nil => rw [List.flatMap_nil, RunAll.nil_iff] at hr; subst hr; exact .refl
  | cons i is ih =>
    simp only [List.flatMap_cons, FindOps.pass, List.cons_append, List.nil_append, RunAll.cons_iff] at hr
    obtain ⟨_, rfl, d2, h2, d3, h3, h4⟩ := hr
    exact .head (.stream _ _ _ _ _ _ _ (.up _ _ _ _)) (.head (.stream _ _ _ _ _ _ _ (.run h2))
      (.head (.stream _ _ _ _ _ _ _ (.run h3)) (ih d3 h4)))

/-- A schedule in which the page-locked memory gets other contents `other` after the operation has
returned and before the storing passes read it. -/
theorem FindOps.late (blocks : List (List (Fin D → ℤ))) (hn : blocks.length > 1) (other : HostVal D)
    (h : FindBuf → HostVal D) (d d1 d2 d' : S)
    (h1 : RunAll (o.zero :: (blocks.flatMap (o.pass o.count) ++ [o.clamp, o.scan])) d d1)
    (h2 : o.alloc (o.total d1) d1 d2)
    (h3 : RunAll ((List.range blocks.length).flatMap (fun i => o.pass o.store (other.offs.getD i []))) d2 d') :
    AsyncResult False (o.prog blocks) h d d' := by
  refine ⟨fun _ => other, ?_⟩
  rw [RunAll.cons_iff] at h1
  obtain ⟨da, ha, h1⟩ := h1
  rw [RunAll.append_iff] at h1
  obtain ⟨db, hb, h1⟩ := h1
  rw [RunAll.cons_iff] at h1
  obtain ⟨dc, hc, h1⟩ := h1
  rw [RunAll.cons_iff] at h1
  obtain ⟨de, he, h1⟩ := h1
  rw [RunAll.nil_iff] at h1
  subst h1
  rw [← range_flatMap_getD blocks [] (o.pass o.count)] at hb
  unfold FindOps.prog
  refine .head (.launch _ _ _ _ _) (.head (.stream _ _ _ _ _ _ _ (.run ha)) (.head (.write _ _ _ _ _ _) ?_))
  refine (eagerLoop o False o.count _ (Function.update h .offsets ⟨blocks, 0⟩) _ da db (by
    rw [Function.update_self]; exact hb)).trans ?_
  refine .head (.launch _ _ _ _ _) (.head (.stream _ _ _ _ _ _ _ (.run hc)) (.head (.launch _ _ _ _ _)
    (.head (.stream _ _ _ _ _ _ _ (.run he)) (.head (.download _ _ _ _ _ _)
    (.head (.stream _ _ _ _ _ _ _ (.down _ _ _ _)) (.head (.sync _ _ _) (.head (.read _ _ _ _ _) ?_)))))))
  rw [Function.update_self]
  unfold FindOps.storeProg
  simp only [if_pos hn]
  refine .head (.launch _ _ _ _ _) (.head (.stream _ _ _ _ _ _ _ (.run h2)) ?_)
  refine (aheadLoop o False o.store _ _ _ _).trans (.head (.reuse _ (fun _ => other) _ _ (by simp)) ?_)
  exact drainLoop o False o.store _ _ _ _ h3

end

/-- Three points along the first of four dimensions, in two cells. -/
abbrev exAsync : Grid 4 ℚ :=
  ⟨⟨3, fun i d => if d = 0 then (![0, 3 / 4, 5 / 4] : Fin 3 → ℚ) i else 0, fun _ => 0, 1⟩, fun _ => 1, 1 / 100⟩

abbrev exAsyncTab : ℤ → ℕ × ℕ :=
  fun s => buildDsResult (buildDsThreads (cuNc exAsync) (cuSortedKeys exAsync) exAsync.c.n 1).flatten s

/-- The third point as centre. -/
abbrev exAsyncCen : ℕ → ℕ × (Fin 4 → ℚ) := fun _ => (0, fun d => if d = 0 then 5 / 4 else 0)

/-- The second point (position 2) is at distance 1/2 from the centre. -/
theorem exAsync_near (hi : 2 < exAsync.c.n) :
    ∑ e, (((exAsyncCen 0).2 e - exAsync.c.pts (cuPerm exAsync ⟨2, hi⟩) e) / 1) ^ 2 < 1 := by
  have : cuPerm exAsync ⟨2, hi⟩ = 1 := by decide +revert +kernel
  rw [this, Fin.sum_univ_four]
  decide +kernel

/-- **C122 fails in four dimensions**: the storing passes read the offsets from page-locked
memory that the operation has already given back.  If its new owner fills it with zeros
first, a point within the radius is missing in the output. -/
theorem C122_find_false : ¬ ∀ (g : Grid 4 ℚ) (tab : ℤ → ℕ × ℕ), g.c.Valid → BuiltTable g tab →
    ∀ (cen : ℕ → ℕ × (Fin 4 → ℚ)) (rad : Fin 4 → ℚ), (∀ d, 0 < rad d) → (∀ d, rad d ≤ g.cs d) →
    ∀ fuel, Nat.clog 2 g.c.n + 1 ≤ fuel → ∀ (S Wc Ws Wn : ℕ), 0 < Wc → 0 < Ws → 0 < Wn → 0 < S → S ≤ 512 + Ws * 64 →
    ∀ (h : FindBuf → HostVal 4) (d d' : FindDev 4), AsyncResult False ((plainOps S offsetsPerBlock Wc Ws Wn
      (opRanges fuel g tab cen) (opHit g cen (fun d => (rad d)⁻¹))).prog (offsetBlocks 4 1)) h d d' →
    ∀ s i, s < S → (hi : i < g.c.n) → g.c.batch (cuPerm g ⟨i, hi⟩) = (cen s).1 →
        ∑ e, (((cen s).2 e - g.c.pts (cuPerm g ⟨i, hi⟩) e) / rad e) ^ 2 < 1 →
      ∃ j < d'.size, d'.mem.out j = (i, s) := by
  intro hall
  have htab : BuiltTable exAsync exAsyncTab := ⟨1, _, one_pos, Interleave.exists_seq _, rfl⟩
  have hlen : (offsetBlocks 4 1).length = 3 := by rw [offsetBlocks_pow]; rfl
  let rgs := opRanges 3 exAsync exAsyncTab exAsyncCen
  let hit := opHit exAsync exAsyncCen (fun d => (1 : ℚ)⁻¹)
  let o := plainOps 1 offsetsPerBlock 1 1 1 rgs hit
  let d : FindDev 4 := ⟨[], fun _ => (0, 0), 0, 0, ⟨fun _ => 0, []⟩⟩
  obtain ⟨cnt, h1⟩ := exists_countPasses 1 offsetsPerBlock 64 1 hit ((offsetBlocks 4 1).map rgs) (fun _ => 0)
  obtain ⟨out, tot, h2⟩ := C57_run_exists 1 1 (fun i => (cnt i : ℤ))
  obtain ⟨e1, e2⟩ := C57_scan_partial 1 1 one_pos one_pos (by norm_num) _ out tot h2
  let start : ℕ → ℕ := fun s => ∑ x ∈ Finset.range s, cnt x
  let total := ∑ x ∈ Finset.range 1, cnt x
  have htot : ((total : ℕ) : ℤ) = tot := by rw [e2]; simp only [total]; push_cast; rfl
  have hst : ∀ s < 1, (start s : ℤ) = out s := by
    intro s hs
    rw [e1 s hs]
    simp only [start]
    push_cast
    rfl
  rw [← htot] at h2
  let d1 : FindDev 4 := ⟨(d.after rgs (offsetBlocks 4 1)).offs, (d.after rgs (offsetBlocks 4 1)).rg, total, 0, ⟨start, []⟩⟩
  let d2 : FindDev 4 := { d1 with mem := ⟨start, []⟩, size := total }
  obtain ⟨m, h3⟩ := exists_storePasses 1 offsetsPerBlock (storeThreads 1 offsetsPerBlock 64 1) hit
    (([[], [], []] : List (List (Fin 4 → ℤ))).map rgs) d2.mem
  let d' : FindDev 4 := { d2.after rgs [[], [], []] with mem := m }
  have hr : AsyncResult False (o.prog (offsetBlocks 4 1)) (fun _ => ⟨[], 0⟩) d d' := by
    refine o.late _ (by rw [hlen]; norm_num) ⟨[], 0⟩ _ d d1 d2 d' ?_ rfl ?_
    · refine .cons rfl (RunAll.append_iff.mpr ⟨_, (plain_count _ _ _ _ _ _ _ _ _ _).mpr ⟨cnt, h1, rfl⟩,
        .cons rfl (.cons ⟨start, out, total, h2, hst, ?_⟩ (.nil _))⟩)
      rfl
    · rw [hlen]
      exact (plain_store 1 offsetsPerBlock 1 1 1 rgs hit [[], [], []] d2 d').mpr ⟨m, h3, rfl⟩
  have hmiss := hall exAsync exAsyncTab (by intro i; decide +revert +kernel) htab exAsyncCen (fun _ => 1) (fun _ => one_pos)
    (fun _ => le_rfl) 3 (by decide +kernel) 1 1 1 1 one_pos one_pos one_pos one_pos (by norm_num) _ d d' hr 0 2 one_pos
    (by decide +kernel) (by decide +kernel) (exAsync_near _)
  obtain ⟨j, _, hj⟩ := hmiss
  obtain ⟨items, i1, i2⟩ := storePasses_spec (by decide) hit _ start (fun _ => []) [] d2.mem m
    ⟨fun s => by simp [d2], by simp [d2, assignSlots]⟩ (by simp) h3
  have hfind : allFinds offsetsPerBlock (([[], [], []] : List (List (Fin 4 → ℤ))).map rgs) hit 0 = List.replicate 27 0 := by
    decide +kernel
  have hval : ∀ w ∈ m.writes, w.2 = (0, 0) := by
    intro w hw
    have hw := i1.writes.mem_iff.mp hw
    have hmem : w.2 ∈ items := by
      clear i1 i2
      induction items with
      | nil => simp [assignSlots] at hw
      | cons x l ih =>
        rcases List.mem_cons.mp hw with rfl | hw
        · exact List.mem_cons_self ..
        · exact List.mem_cons_of_mem _ (ih hw)
    have := i2.mem_iff.mp hmem
    rw [List.range_one, List.flatMap_singleton, List.nil_append, hfind] at this
    obtain ⟨p, hp, e⟩ := List.mem_map.mp this
    rw [List.eq_of_mem_replicate hp] at e
    exact e.symm
  have : m.out j = (0, 0) := by
    unfold StoreMem.out
    by_cases hx : ∃ w ∈ m.writes, w.1 = j
    · obtain ⟨w, hw, _, e⟩ := runWrites_last (fun _ => (0, 0)) m.writes j hx
      rw [e, hval w hw]
    · rw [runWrites_not_mem _ _ _ (fun w hw e => hx ⟨w, hw, e⟩)]
  rw [show d'.mem.out j = m.out j from rfl, this] at hj
  exact absurd hj (by decide)

/-! ### the statements are not empty -/

/-- The search in three dimensions of `exSearch` returns under all schedules the second point as
neighbour of the first one, and there are schedules. -/
example (h : FindBuf → HostVal 3) (d : FindDev 3) :
    (∃ d', AsyncResult False ((plainOps 1 offsetsPerBlock 1 1 1 (opRanges 5 exSearch exSearchTab (fun _ => (0, exSearch.c.pts 0)))
      (opHit exSearch (fun _ => (0, exSearch.c.pts 0)) (fun _ => (1 : ℚ)⁻¹))).prog (offsetBlocks 3 1)) h d d') ∧
    ∀ d', AsyncResult False ((plainOps 1 offsetsPerBlock 1 1 1 (opRanges 5 exSearch exSearchTab (fun _ => (0, exSearch.c.pts 0)))
      (opHit exSearch (fun _ => (0, exSearch.c.pts 0)) (fun _ => (1 : ℚ)⁻¹))).prog (offsetBlocks 3 1)) h d d' →
      ∃ j < d'.size, d'.mem.out j = (1, 0) := by
  constructor
  · obtain ⟨total, res, hr⟩ := C58_run_exists 1 offsetsPerBlock 1 1 1 one_pos one_pos (by norm_num)
      ((offsetBlocks 3 1).map (opRanges 5 exSearch exSearchTab (fun _ => (0, exSearch.c.pts 0))))
      (opHit exSearch (fun _ => (0, exSearch.c.pts 0)) (fun _ => (1 : ℚ)⁻¹))
    obtain ⟨d', h1, _⟩ := (C122_find_kernels_partial (k := 1) False (Or.inr le_rfl) exSearch exSearchTab _ 5 _ 1
      offsetsPerBlock 1 1 1 h d total res).mpr hr
    exact ⟨d', h1⟩
  · intro d' hd
    refine (C122_find_partial (k := 1) False (Or.inr le_rfl) exSearch exSearchTab ⟨2, _, two_pos, Interleave.exists_seq _, rfl⟩ _
      (fun _ => 1) (fun _ => one_pos) (fun _ => le_rfl) 5 (by decide +kernel) 1 1 1 1 one_pos one_pos one_pos one_pos
      (by norm_num) h d d' hd 0 1).mpr ⟨one_pos, by decide +kernel, by decide +kernel, ?_⟩
    have : ∀ hi : 1 < exSearch.c.n, cuPerm exSearch ⟨1, hi⟩ = 0 ∨ cuPerm exSearch ⟨1, hi⟩ = 1 := by decide +kernel
    rcases this (by decide +kernel) with e | e <;> rw [e, Fin.sum_univ_three] <;> decide +kernel

/-- A host program that is not well synchronised: the buffer is overwritten while the upload is
pending, so that two results are possible. -/
example : let p : HostProg Unit ℕ ℕ := .write () 1 (.upload () (fun v _ => v) (.write () 2 (.sync .ret)))
    AsyncResult False p (fun _ => 0) 0 1 ∧ AsyncResult False p (fun _ => 0) 0 2 := by
  constructor
  · exact C122_eager _ _ _ _ _ (.write (.upload (.write (.sync (.ret _ _)))))
  · refine ⟨fun _ => 2, .head (.write _ _ _ _ _ _) (.head (.upload _ _ _ _ _ _) (.head (.write _ _ _ _ _ _) ?_))⟩
    refine .head (.stream _ _ _ _ _ _ _ (.up _ _ _ _)) (.head (.sync _ _ _) ?_)
    exact .refl

/-- Three kernels without host synchronisation. -/
example : AsyncResult False (launchProg [fun d d' => d' = d + 1, fun d d' => d' = 2 * d, fun d d' => d' = d ∨ d' = 0] :
    HostProg Unit ℕ ℕ) (fun _ => 0) 3 8 :=
  (C122_launches _ _ _ _).mpr (.cons rfl (.cons rfl (.cons (Or.inl rfl) (.nil _))))

end PC
