import Verif.FindCuda
import Mathlib.Data.List.Infix
import Mathlib.Tactic.IntervalCases
import Mathlib.Tactic.Linarith

/-!
# C137-C139: the configuration finds the requested libraries
-/

namespace PC

/-! ## C137: versions -/

/-- Specification: all elements of the required version are present in the actual version (the
table in the documentation of `_matches_version`). -/
def VersionMeets (actual required : PyStr) : Prop :=
  required = [] ∨ actual = required ∨ ∃ rest, actual = required ++ '.' :: rest

/-- A version: digits and dots, so nothing to strip. -/
def IsVersion (s : PyStr) : Prop := ∀ c ∈ s, c.isDigit ∨ c = '.'

theorem isVersion_not_space {c : Char} (h : c.isDigit ∨ c = '.') : c.isWhitespace = false := by
  rcases h with h | rfl
  · unfold Char.isDigit at h
    unfold Char.isWhitespace
    simp only [Bool.and_eq_true, decide_eq_true_eq] at h
    simp only [Bool.or_eq_false_iff, decide_eq_false_iff_not]
    refine ⟨⟨⟨?_, ?_⟩, ?_⟩, ?_⟩ <;> rintro rfl <;> revert h <;> decide
  · decide

theorem pyStrip_version {s : PyStr} (h : IsVersion s) : pyStrip s = s := by
  have key : ∀ t : PyStr, (∀ c ∈ t, c.isDigit ∨ c = '.') → t.dropWhile Char.isWhitespace = t := by
    intro t ht
    cases t with
    | nil => rfl
    | cons c t => simp [isVersion_not_space (ht c List.mem_cons_self)]
  unfold pyStrip
  rw [key s h, key s.reverse (fun c hc => h c (List.mem_reverse.1 hc)), List.reverse_reverse]

/-- **C137, nothing is refused**: a version that meets the requirement is accepted. -/
theorem C137_accepts {a r : PyStr} (ha : IsVersion a) (hr : IsVersion r) (h : VersionMeets a r) :
    matchesVersion (some a) r = true := by
  unfold matchesVersion
  dsimp only
  rw [pyStrip_version ha, pyStrip_version hr]
  simp only [List.isPrefixOf_iff_prefix]
  rcases h with rfl | rfl | ⟨rest, rfl⟩
  · exact List.nil_prefix
  · exact List.prefix_refl _
  · exact List.prefix_append _ _

/-- **C137, what is accepted**: a version that meets the requirement, or one in which the required version is
followed by a further digit. -/
theorem C137_accepted_partial {a r : PyStr} (ha : IsVersion a) (hr : IsVersion r) (h : matchesVersion (some a) r = true) :
    VersionMeets a r ∨ ∃ c rest, c.isDigit ∧ a = r ++ c :: rest := by
  unfold matchesVersion at h
  dsimp only at h
  rw [pyStrip_version ha, pyStrip_version hr] at h
  simp only [List.isPrefixOf_iff_prefix] at h
  obtain ⟨t, rfl⟩ := h
  cases t with
  | nil => exact .inl (.inr (.inl (List.append_nil r)))
  | cons c rest =>
    rcases ha c (by simp) with hc | rfl
    · exact .inr ⟨c, rest, hc, rfl⟩
    · exact .inl (.inr (.inr ⟨rest, rfl⟩))

/-- **C137 is false**: version 10.1 is accepted where version 1 is required. -/
theorem C137_accepted_false : ¬ ∀ a r : PyStr, IsVersion a → IsVersion r → matchesVersion (some a) r = true →
    VersionMeets a r := by
  intro h
  have h1 := h "10.1".toList "1".toList (by unfold IsVersion; decide) (by unfold IsVersion; decide) (by decide)
  rcases h1 with h1 | h1 | ⟨rest, h1⟩
  · revert h1; decide
  · revert h1; decide
  · have : ("10.1".toList)[1]? = (("1".toList) ++ '.' :: rest)[1]? := by rw [h1]
    revert this
    simp

theorem digit_ofNat {d : ℕ} (hd : d < 10) : (Char.ofNat (48 + d)).isDigit = true ∧ (Char.ofNat (48 + d)).toNat - 48 = d ∧
    Char.ofNat (48 + d) ≠ '.' := by
  interval_cases d <;> decide

theorem decStr_spec (n : ℕ) : decStr n ≠ [] ∧ (∀ c ∈ decStr n, c.isDigit = true ∧ c ≠ '.') ∧
    (decStr n).foldl (fun n c => 10 * n + (c.toNat - 48)) 0 = n := by
  induction n using Nat.strong_induction_on with
  | _ n ih =>
    rw [decStr]
    by_cases h : n < 10
    · rw [if_pos h]
      obtain ⟨h1, h2, h3⟩ := digit_ofNat h
      refine ⟨by simp, ?_, ?_⟩
      · simp [h1, h3]
      · simp only [List.foldl_cons, List.foldl_nil, h2]
        omega
    · rw [if_neg h]
      obtain ⟨h1, h2, h3⟩ := digit_ofNat (Nat.mod_lt n (by norm_num : 0 < 10))
      obtain ⟨i1, i2, i3⟩ := ih (n / 10) (by omega)
      refine ⟨by simp, ?_, ?_⟩
      · intro c hc
        rcases List.mem_append.1 hc with hc | hc
        · exact i2 c hc
        · rw [List.mem_singleton] at hc
          rw [hc]
          exact ⟨h1, h3⟩
      · rw [List.foldl_append, i3]
        simp only [List.foldl_cons, List.foldl_nil, h2]
        omega

theorem pyInt_decStr (n : ℕ) : pyInt (decStr n) = some n := by
  obtain ⟨h1, h2, h3⟩ := decStr_spec n
  unfold pyInt
  rw [if_neg, h3]
  rintro (h | h)
  · exact h1 h
  · exact h (List.all_eq_true.2 fun c hc => (h2 c hc).1)

theorem charSplit_none {c : Char} {s : PyStr} (h : ∀ x ∈ s, x ≠ c) : charSplit c s = [s] := by
  induction s with
  | nil => rfl
  | cons x s ih =>
    rw [charSplit, if_neg (h x List.mem_cons_self), ih fun y hy => h y (List.mem_cons_of_mem _ hy)]

theorem charSplit_append {c : Char} {s t : PyStr} (h : ∀ x ∈ s, x ≠ c) : charSplit c (s ++ c :: t) = s :: charSplit c t := by
  induction s with
  | nil => simp [charSplit]
  | cons x s ih =>
    rw [List.cons_append, charSplit, if_neg (h x List.mem_cons_self), ih fun y hy => h y (List.mem_cons_of_mem _ hy)]

/-- **C137, the comparison with 10.1**: decides by the number in the header, for every header. -/
theorem C137_at_least (v : ℕ) : atLeastVersion (cudaVersionStr v) "10.1".toList = .ok (decide (10010 ≤ v)) := by
  have h1 : (charSplit '.' (cudaVersionStr v)).mapM pyInt = some [v / 1000, v % 1000 / 10] := by
    unfold cudaVersionStr
    rw [charSplit_append fun c hc => ((decStr_spec _).2.1 c hc).2, charSplit_none fun c hc => ((decStr_spec _).2.1 c hc).2]
    simp [pyInt_decStr]
  have h2 : (charSplit '.' "10.1".toList).mapM pyInt = some [10, 1] := by decide
  unfold atLeastVersion
  rw [h1, h2]
  simp only [listGe, Except.ok.injEq]
  by_cases e : v / 1000 = 10
  · rw [if_pos e]
    by_cases e2 : v % 1000 / 10 = 1
    · rw [if_pos e2]
      symm
      rw [decide_eq_true_eq]
      omega
    · rw [if_neg e2]
      apply decide_eq_decide.2
      omega
  · rw [if_neg e]
    apply decide_eq_decide.2
    omega

/-! ## C138: the search over the directories -/

section
variable {File : Type*}

/-- **C138, what is found**: the first candidate whose version is accepted. -/
theorem C138_found (getVersion : File → Except CfgErr (Option PyStr)) (required : PyStr) (cands : List File) (f : File)
    (v : PyStr) (h : findVersioned getVersion required cands = .ok (f, v)) :
    ∃ before after, cands = before ++ f :: after ∧ getVersion f = .ok (some v) ∧ matchesVersion (some v) required = true ∧
      ∀ g ∈ before, ∃ w, getVersion g = .ok w ∧ matchesVersion w required = false := by
  induction cands with
  | nil => simp [findVersioned] at h
  | cons g fs ih =>
    rw [findVersioned] at h
    split at h
    · simp at h
    · rename_i e
      obtain ⟨b, a, h1, h2, h3, h4⟩ := ih h
      refine ⟨g :: b, a, by rw [h1]; rfl, h2, h3, ?_⟩
      rintro x hx
      rcases List.mem_cons.1 hx with rfl | hx
      · exact ⟨none, e, rfl⟩
      · exact h4 x hx
    · rename_i w e
      by_cases hm : matchesVersion (some w) required = true
      · rw [if_pos hm] at h
        simp only [Except.ok.injEq, Prod.mk.injEq] at h
        obtain ⟨rfl, rfl⟩ := h
        exact ⟨[], fs, rfl, e, hm, by simp⟩
      · rw [if_neg hm] at h
        obtain ⟨b, a, h1, h2, h3, h4⟩ := ih h
        refine ⟨g :: b, a, by rw [h1]; rfl, h2, h3, ?_⟩
        rintro x hx
        rcases List.mem_cons.1 hx with rfl | hx
        · exact ⟨some w, e, by simpa using hm⟩
        · exact h4 x hx

/-- **C138, nothing is missed** if no header stops the search: an accepted candidate anywhere is enough. -/
theorem C138_complete_partial (getVersion : File → Except CfgErr (Option PyStr)) (required : PyStr) (cands : List File)
    (hok : ∀ f ∈ cands, ∃ v, getVersion f = .ok v) :
    (∃ f ∈ cands, ∃ v, getVersion f = .ok (some v) ∧ matchesVersion (some v) required = true) ↔
      ∃ r, findVersioned getVersion required cands = .ok r := by
  induction cands with
  | nil => simp [findVersioned]
  | cons g fs ih =>
    have ih := ih fun f hf => hok f (List.mem_cons_of_mem _ hf)
    obtain ⟨v, hv⟩ := hok g List.mem_cons_self
    rw [findVersioned, hv]
    cases v with
    | none =>
      dsimp only
      rw [← ih]
      simp [hv]
    | some w =>
      dsimp only
      by_cases hm : matchesVersion (some w) required = true
      · rw [if_pos hm]
        simp [hv, hm]
      · rw [if_neg hm, ← ih]
        simp [hv, hm]

/-- **C138, headers of cuBLAS, cuDNN, NCCL and TensorRT** never stop the search. -/
theorem C138_no_stop (major minor patch : PyStr) (lines : List PyStr) :
    (∃ v, threeVersion major minor patch lines = .ok v) ∧ ∃ v, rtVersion major minor patch lines = .ok v := by
  refine ⟨⟨_, rfl⟩, ?_⟩
  unfold rtVersion
  split
  · exact ⟨_, rfl⟩
  · exact ⟨_, rfl⟩

/-- **C138, candidates** are exactly the files below the given directories. -/
theorem C138_candidates {Base Rel : Type*} (glob : Base → Rel → List File) (bases : List Base) (rels : List Rel)
    (f : File) : f ∈ candidates glob bases rels ↔ ∃ b ∈ bases, ∃ r ∈ rels, f ∈ glob b r := by
  simp only [candidates, List.mem_flatMap, List.mem_map]
  constructor
  · rintro ⟨p, ⟨b, hb, r, hr, rfl⟩, hf⟩
    exact ⟨b, hb, r, hr, hf⟩
  · rintro ⟨b, hb, r, hr, hf⟩
    exact ⟨(b, r), ⟨b, hb, r, hr, rfl⟩, hf⟩

end

/-- A `cuda.h` that only includes another file, and one of version 10.1. -/
abbrev exHeaders (i : Fin 2) : List PyStr :=
  if i = 0 then ["#include <cuda/cuda.h>".toList] else ["/* api */".toList, "#define CUDA_VERSION 10010".toList]

/-- **C138 is false for `cuda.h`**: a header without version in an earlier directory ends the search with a
`ValueError`, although the requested version is installed. -/
theorem C138_complete_false : ¬ ∀ (lines : Fin 2 → List PyStr) (required : PyStr) (cands : List (Fin 2)),
    (∃ f ∈ cands, ∃ v, cudaHeaderVersion (lines f) = .ok (some v) ∧ VersionMeets v required) →
      ∃ r, findCuda lines required cands = .ok r := by
  intro h
  obtain ⟨r, hr⟩ := h exHeaders "10.1".toList [0, 1] ⟨1, by simp, "10.1".toList, by decide +kernel, .inr (.inl rfl)⟩
  have : findCuda exHeaders "10.1".toList [0, 1] = .error .value := by decide +kernel
  rw [this] at hr
  cases hr

/-- The other way round the header is found. -/
example : findCuda exHeaders "10".toList [1, 0] = .ok (1, "10.1".toList) := by decide +kernel

/-- **C138, cuDNN without version**: with no requirement, a header without version is taken and the reported
version is empty (cuDNN 8 keeps the version in another file). -/
theorem C138_cudnn_false : ¬ ∀ (lines : Fin 1 → List PyStr) (required : PyStr) (f : Fin 1) (v : PyStr),
    findCudnn lines required [0] = .ok (f, v) → v ≠ [] := by
  intro h
  exact h (fun _ => ["#include \"cudnn_version.h\"".toList]) [] 0 [] (by decide +kernel) rfl

theorem headerVersion_digits (lines : List PyStr) (name : PyStr) : ∀ c ∈ headerVersion lines name, c.isDigit = true := by
  intro c hc
  unfold headerVersion at hc
  cases h : lines.findSome? (matchDefine name) with
  | none => rw [h] at hc; simp at hc
  | some ds =>
    rw [h] at hc
    obtain ⟨line, _, hl⟩ := List.exists_of_findSome?_eq_some h
    unfold matchDefine at hl
    split at hl
    · dsimp only at hl
      split at hl
      · simp at hl
      · simp only [Option.some.injEq] at hl
        rw [← hl] at hc
        exact (List.all_eq_true.1 (List.all_takeWhile (p := Char.isDigit))) c hc
    · simp at hl

/-- **C138, the version of cuDNN**: the reported version is the major version the header defines, and version
and requirement agree as far as the shorter of the two goes. -/
theorem C138_cudnn {File : Type*} (lines : File → List PyStr) (required : PyStr) (hr : IsVersion required)
    (cands : List File) (f : File) (v : PyStr) (h : findCudnn lines required cands = .ok (f, v)) : f ∈ cands ∧
      v = headerVersion (lines f) "CUDNN_MAJOR".toList ∧ (v <+: required ∨ required <+: v) := by
  unfold findCudnn at h
  split at h
  · simp at h
  · rename_i g w e
    simp only [Except.ok.injEq, Prod.mk.injEq] at h
    obtain ⟨rfl, rfl⟩ := h
    obtain ⟨b, a, h1, h2, h3, _⟩ := C138_found _ _ _ _ _ e
    simp only [threeVersion, Except.ok.injEq, Option.some.injEq] at h2
    have hd : ∀ n c, c ∈ headerVersion (lines g) n → c.isDigit ∨ c = '.' := fun n c hc =>
      .inl (headerVersion_digits _ _ c hc)
    have hw : IsVersion w := by
      rw [← h2]
      intro c hc
      simp only [List.mem_append, List.mem_cons] at hc
      rcases hc with hc | rfl | hc | rfl | hc
      · exact hd _ c hc
      · exact .inr rfl
      · exact hd _ c hc
      · exact .inr rfl
      · exact hd _ c hc
    have hs : (charSplit '.' w).headD [] = headerVersion (lines g) "CUDNN_MAJOR".toList := by
      rw [← h2, charSplit_append]
      · rfl
      · rintro c hc rfl
        have := headerVersion_digits _ _ _ hc
        revert this
        decide
    refine ⟨by rw [h1]; simp, hs, ?_⟩
    rw [hs]
    unfold matchesVersion at h3
    dsimp only at h3
    rw [pyStrip_version hw, pyStrip_version hr, List.isPrefixOf_iff_prefix] at h3
    have h4 : headerVersion (lines g) "CUDNN_MAJOR".toList <+: w := by
      rw [← h2]
      exact List.prefix_append _ _
    exact List.prefix_or_prefix_of_prefix h4 h3

/-- cuDNN 7.6.5 meets the requirement 7.6 and is reported as 7. -/
example : findCudnn (fun _ : Fin 1 => ["#define CUDNN_MAJOR 7".toList, "#define CUDNN_MINOR 6".toList,
    "#define CUDNN_PATCHLEVEL 5".toList]) "7.6".toList [0] = .ok (0, "7".toList) := by decide +kernel

/-- Specification: the line defines `name` as the number `ds`. -/
def DefinesAs (name line ds : PyStr) : Prop :=
  ∃ blanks rest : PyStr, line = "#define ".toList ++ name ++ blanks ++ ds ++ rest ∧ blanks ≠ [] ∧ (∀ c ∈ blanks, c = ' ') ∧
    ds ≠ [] ∧ (∀ c ∈ ds, c.isDigit = true) ∧ ∀ c, rest.head? = some c → c.isDigit = false

theorem takeWhile_split {α : Type*} (p : α → Bool) (a b : List α) (ha : ∀ c ∈ a, p c = true) (hb : ∀ c, b.head? = some c → p c = false) :
    (a ++ b).takeWhile p = a ∧ (a ++ b).dropWhile p = b := by
  induction a with
  | nil =>
    cases b with
    | nil => exact ⟨rfl, rfl⟩
    | cons c b =>
      have := hb c rfl
      simp [this]
  | cons c a ih =>
    have h := ih (fun x hx => ha x (by simp [hx]))
    have hc := ha c (by simp)
    simp [hc, h.1, h.2]

theorem mem_takeWhile_imp_ {α : Type*} (p : α → Bool) (l : List α) (c : α) (h : c ∈ l.takeWhile p) : p c = true := by
  induction l with
  | nil => simp at h
  | cons x l ih =>
    by_cases hx : p x = true
    · rw [List.takeWhile_cons_of_pos hx] at h
      rcases List.mem_cons.mp h with rfl | h
      · exact hx
      · exact ih h
    · rw [List.takeWhile_cons_of_neg hx] at h
      cases h

theorem dropWhile_head {α : Type*} (p : α → Bool) (l : List α) (c : α) (h : (l.dropWhile p).head? = some c) : p c = false := by
  induction l with
  | nil => simp at h
  | cons x l ih =>
    by_cases hx : p x = true
    · rw [List.dropWhile_cons_of_pos hx] at h
      exact ih h
    · rw [List.dropWhile_cons_of_neg hx] at h
      simp only [List.head?_cons, Option.some.injEq] at h
      subst h
      simpa using hx

theorem matchDefine_iff (name line ds : PyStr) : matchDefine name line = some ds ↔ DefinesAs name line ds := by
  unfold matchDefine
  constructor
  · intro h
    split at h
    · rename_i hp
      obtain ⟨rest, rfl⟩ := List.isPrefixOf_iff_prefix.mp hp
      dsimp only at h
      rw [List.drop_left] at h
      split at h
      · cases h
      · rename_i hn
        have h := Option.some.inj h
        push Not at hn
        refine ⟨rest.takeWhile (· = ' '), (rest.dropWhile (· = ' ')).dropWhile Char.isDigit, ?_, ?_, ?_, ?_, ?_, ?_⟩
        · rw [← h]
          simp only [List.append_assoc]
          rw [List.takeWhile_append_dropWhile, List.takeWhile_append_dropWhile]
        · intro he
          obtain ⟨c, t, rfl⟩ : ∃ c t, rest = c :: t := by
            cases rest with
            | nil => simp at hn
            | cons c t => exact ⟨c, t, rfl⟩
          have hc : c = ' ' := by simpa using hn.1
          subst hc
          simp at he
        · intro c hc
          simpa using mem_takeWhile_imp_ _ _ c hc
        · rw [← h]
          exact hn.2
        · rw [← h]
          intro c hc
          exact mem_takeWhile_imp_ _ _ c hc
        · intro c hc
          exact dropWhile_head _ _ c hc
    · cases h
  · rintro ⟨blanks, rest, rfl, h1, h2, h3, h4, h5⟩
    have e : "#define ".toList ++ name ++ blanks ++ ds ++ rest = ("#define ".toList ++ name) ++ (blanks ++ (ds ++ rest)) := by
      simp only [List.append_assoc]
    rw [e, if_pos (List.isPrefixOf_iff_prefix.mpr (List.prefix_append _ _))]
    dsimp only
    rw [List.drop_left]
    have hb := takeWhile_split (fun c => decide (c = ' ')) blanks (ds ++ rest) (by simpa using h2) (by
      intro c hc
      obtain ⟨d, t, rfl⟩ := List.exists_cons_of_ne_nil h3
      simp only [List.cons_append, List.head?_cons, Option.some.injEq] at hc
      subst hc
      have := h4 d (by simp)
      simp only [decide_eq_false_iff_not]
      rintro rfl
      revert this
      decide)
    rw [hb.2, (takeWhile_split Char.isDigit ds rest h4 h5).1, if_neg]
    push Not
    refine ⟨?_, h3⟩
    obtain ⟨d, t, rfl⟩ := List.exists_cons_of_ne_nil h1
    simp [h2 d (by simp)]

/-- **C138, versions in headers**: what is found is the number of the first line that defines the name; the empty string
means that no line defines it. -/
theorem C138_header (lines : List PyStr) (name : PyStr) :
    (∀ ds, ds ≠ [] → (headerVersion lines name = ds ↔ ∃ before line after, lines = before ++ line :: after ∧
      DefinesAs name line ds ∧ ∀ l ∈ before, ∀ e, ¬ DefinesAs name l e)) ∧
    (headerVersion lines name = [] ↔ ∀ l ∈ lines, ∀ e, ¬ DefinesAs name l e) := by
  have hne : ∀ l e, matchDefine name l = some e → e ≠ [] := fun l e h => by
    obtain ⟨_, _, _, _, _, h3, _⟩ := (matchDefine_iff name l e).mp h
    exact h3
  have hnone : ∀ l, matchDefine name l = none ↔ ∀ e, ¬ DefinesAs name l e := by
    intro l
    simp only [← matchDefine_iff]
    cases matchDefine name l <;> simp
  simp only [← matchDefine_iff, headerVersion]
  constructor
  · intro ds hds
    rw [show ((lines.findSome? (matchDefine name)).getD [] = ds) ↔ lines.findSome? (matchDefine name) = some ds by
      cases h : lines.findSome? (matchDefine name) with
      | none => simpa using hds.symm
      | some x => simp]
    rw [List.findSome?_eq_some_iff]
    constructor
    · rintro ⟨a, l, b, h1, h2, h3⟩
      exact ⟨a, l, b, h1, h2, fun x hx e => by rw [h3 x hx]; simp⟩
    · rintro ⟨a, l, b, h1, h2, h3⟩
      refine ⟨a, l, b, h1, h2, fun x hx => ?_⟩
      cases h : matchDefine name x with
      | none => rfl
      | some e => exact absurd h (h3 x hx e)
  · constructor
    · intro h l hl e he
      cases h' : lines.findSome? (matchDefine name) with
      | none => rw [List.findSome?_eq_none_iff.mp h' l hl] at he; cases he
      | some x =>
        rw [h'] at h
        obtain ⟨l', _, hl'⟩ := List.exists_of_findSome?_eq_some h'
        exact hne l' x hl' (by simpa using h)
    · intro h
      rw [List.findSome?_eq_none_iff.mpr (fun l hl => by
        cases h' : matchDefine name l with
        | none => rfl
        | some e => exact absurd h' (h l hl e))]
      rfl

/-- A name that continues is another name. -/
example : headerVersion ["#define CUDNN_MAJOR_OLD 5".toList, "#define CUDNN_MAJOR5".toList, "#define CUDNN_MAJOR  7 // x".toList]
    "CUDNN_MAJOR".toList = "7".toList := by decide +kernel

theorem digits_zero (s : PyStr) : ∀ n, (∀ c ∈ s, c.isDigit = true) →
    (s.foldl (fun n c => 10 * n + (c.toNat - 48)) n = 0 ↔ n = 0 ∧ ∀ c ∈ s, c = '0') := by
  induction s with
  | nil => intro n _; simp
  | cons c s ih =>
    intro n h
    rw [List.foldl_cons, ih _ (fun x hx => h x (by simp [hx]))]
    have hc := h c (by simp)
    have h48 : 48 ≤ c.toNat := by
      simp only [Char.isDigit, Bool.and_eq_true, decide_eq_true_eq] at hc
      exact hc.1
    have : c.toNat - 48 = 0 ↔ c = '0' := by
      constructor
      · intro h0
        have h1 : c.toNat = 48 := by omega
        exact Char.toNat_inj.mp h1
      · rintro rfl; rfl
    simp only [List.forall_mem_cons]
    constructor
    · rintro ⟨h1, h2⟩
      exact ⟨by omega, this.mp (by omega), h2⟩
    · rintro ⟨h1, h2, h3⟩
      have := this.mpr h2
      exact ⟨by omega, h3⟩

/-- **C138, `cuda.h`**: the header is passed over exactly if its version is zero. -/
theorem C138_zero (lines : List PyStr) : cudaHeaderVersion lines = .ok none ↔
    headerVersion lines "CUDA_VERSION".toList ≠ [] ∧ ∀ c ∈ headerVersion lines "CUDA_VERSION".toList, c = '0' := by
  have hd := headerVersion_digits lines "CUDA_VERSION".toList
  unfold cudaHeaderVersion pyInt
  obtain ⟨s, hs⟩ : ∃ s, s = headerVersion lines "CUDA_VERSION".toList := ⟨_, rfl⟩
  rw [← hs] at hd ⊢
  have hall : s.all Char.isDigit = true := by simpa using hd
  by_cases h0 : s = []
  · simp [h0]
  · rw [if_neg (by simp only [h0, hall, not_true, or_self, not_false_eq_true])]
    dsimp only
    have := digits_zero s 0 hd
    simp only [true_and] at this
    split
    · rename_i h
      simp only [ne_eq, h0, not_false_eq_true, true_and]
      exact ⟨fun _ => this.mp h, fun _ => trivial⟩
    · rename_i h
      simp only [Except.ok.injEq, reduceCtorEq, false_iff, not_and]
      exact fun _ h' => h (this.mpr h')

/-! ## C139: directories given by the old variables -/

/-- Specification: `root` is an absolute path without blanks, and `s` its directory of libraries. -/
def LegacyRoot (s root : PyStr) : Prop :=
  root.head? = some '/' ∧ (∀ c ∈ root, c ≠ ' ') ∧ ∃ w tail, w ≠ [] ∧ (∀ c ∈ w, c.isAlphanum ∨ c = '_') ∧
    (tail = [] ∨ tail = ['/']) ∧ s = root ++ "/lib/".toList ++ w ++ "-linux-gnu".toList ++ tail

theorem sep_unique {x y a b : PyStr} (hx : ∀ c ∈ x, c ≠ '/') (hy : ∀ c ∈ y, c ≠ '/') (h : x ++ '/' :: a = y ++ '/' :: b) :
    x = y ∧ a = b := by
  induction x generalizing y with
  | nil =>
    cases y with
    | nil => simpa using h
    | cons c y =>
      simp only [List.nil_append, List.cons_append, List.cons.injEq] at h
      exact absurd h.1.symm (hy c List.mem_cons_self)
  | cons c x ih =>
    cases y with
    | nil =>
      simp only [List.nil_append, List.cons_append, List.cons.injEq] at h
      exact absurd h.1 (hx c List.mem_cons_self)
    | cons d y =>
      simp only [List.cons_append, List.cons.injEq] at h
      obtain ⟨h1, h2⟩ := ih (fun e he => hx e (List.mem_cons_of_mem _ he)) (fun e he => hy e (List.mem_cons_of_mem _ he)) h.2
      exact ⟨by rw [h.1, h1], h2⟩

theorem last_sep_unique {x y a b : PyStr} (hx : ∀ c ∈ x, c ≠ '/') (hy : ∀ c ∈ y, c ≠ '/') (h : a ++ '/' :: x = b ++ '/' :: y) :
    a = b ∧ x = y := by
  have h' := congrArg List.reverse h
  simp only [List.reverse_append, List.reverse_cons, List.append_assoc, List.singleton_append] at h'
  obtain ⟨h1, h2⟩ := sep_unique (fun c hc => hx c (List.mem_reverse.1 hc)) (fun c hc => hy c (List.mem_reverse.1 hc)) h'
  exact ⟨List.reverse_injective h2, List.reverse_injective h1⟩

theorem word_no_slash {w : PyStr} (hw : ∀ c ∈ w, c.isAlphanum ∨ c = '_') : ∀ c ∈ w ++ "-linux-gnu".toList, c ≠ '/' := by
  intro c hc
  rcases List.mem_append.1 hc with hc | hc
  · rintro rfl
    have := hw _ hc
    revert this
    decide
  · have : ∀ c ∈ "-linux-gnu".toList, c ≠ '/' := by decide
    exact this c hc

theorem root_unique {r r' w w' tail tail' : PyStr} (hw : ∀ c ∈ w, c.isAlphanum ∨ c = '_')
    (hw' : ∀ c ∈ w', c.isAlphanum ∨ c = '_') (ht : tail = [] ∨ tail = ['/']) (ht' : tail' = [] ∨ tail' = ['/'])
    (h : r ++ "/lib/".toList ++ w ++ "-linux-gnu".toList ++ tail = r' ++ "/lib/".toList ++ w' ++ "-linux-gnu".toList ++ tail') :
    r = r' := by
  have ends : ∀ a b w : PyStr, a ++ w ++ "-linux-gnu".toList ≠ b ++ ['/'] := by
    intro a b w e
    have := congrArg List.getLast? e
    simp at this
  have same : ∀ (h : r ++ "/lib/".toList ++ w ++ "-linux-gnu".toList = r' ++ "/lib/".toList ++ w' ++ "-linux-gnu".toList),
      r = r' := by
    intro h
    have h2 : (r ++ "/lib".toList) ++ '/' :: (w ++ "-linux-gnu".toList) = (r' ++ "/lib".toList) ++ '/' :: (w' ++ "-linux-gnu".toList) := by
      simpa using h
    exact List.append_cancel_right (last_sep_unique (word_no_slash hw) (word_no_slash hw') h2).1
  rcases ht with rfl | rfl <;> rcases ht' with rfl | rfl
  · exact same (by simpa using h)
  · exact absurd (by simpa using h) (ends (r ++ "/lib/".toList) (r' ++ "/lib/".toList ++ w' ++ "-linux-gnu".toList) w)
  · exact absurd (by simpa using h.symm) (ends (r' ++ "/lib/".toList) (r ++ "/lib/".toList ++ w ++ "-linux-gnu".toList) w')
  · exact same (List.append_cancel_right h)

theorem segments (t : PyStr) (ht : ∀ c ∈ t, c ≠ ' ') : ∃ (segs : List PyStr) (last : PyStr),
    (∀ x ∈ segs ++ [last], ∀ c ∈ x, c ≠ '/' ∧ c ≠ ' ') ∧ '/' :: t = segs.flatMap (fun x => '/' :: x) ++ '/' :: last := by
  induction t with
  | nil => exact ⟨[], [], by simp, rfl⟩
  | cons c t ih =>
    obtain ⟨segs, last, h1, h2⟩ := ih fun d hd => ht d (List.mem_cons_of_mem _ hd)
    by_cases e : c = '/'
    · refine ⟨[] :: segs, last, ?_, ?_⟩
      · intro x hx
        rcases List.mem_cons.1 hx with rfl | hx
        · simp
        · exact h1 x hx
      · rw [e, h2]
        rfl
    · have hc : c ≠ '/' ∧ c ≠ ' ' := ⟨e, ht c List.mem_cons_self⟩
      cases segs with
      | nil =>
        refine ⟨[], c :: last, ?_, ?_⟩
        · intro x hx
          rw [List.nil_append, List.mem_singleton] at hx
          subst hx
          intro d hd
          rcases List.mem_cons.1 hd with rfl | hd
          · exact hc
          · exact h1 last (by simp) d hd
        · simp only [List.flatMap_nil, List.nil_append, List.cons.injEq, true_and] at h2 ⊢
          exact h2
      | cons y segs =>
        refine ⟨(c :: y) :: segs, last, ?_, ?_⟩
        · intro x hx
          rcases List.mem_cons.1 hx with rfl | hx
          · intro d hd
            rcases List.mem_cons.1 hd with rfl | hd
            · exact hc
            · exact h1 y (by simp) d hd
          · exact h1 x (List.mem_cons_of_mem _ hx)
        · simp only [List.flatMap_cons, List.cons_append, List.cons.injEq, true_and] at h2 ⊢
          exact h2

theorem legacy_root_of_match {s g : PyStr} (h : LegacyMatch s g) : ∃ front, LegacyRoot s (front ++ g) ∧
    ∃ x, g = '/' :: x ∧ ∀ c ∈ x, c ≠ '/' := by
  obtain ⟨segs, last, w, tail, h1, h2, h3, h4, h5, rfl⟩ := h
  refine ⟨segs.flatMap (fun x => '/' :: x), ⟨?_, ?_, w, tail, h2, h3, h4, by rw [h5]⟩, last, rfl,
    fun c hc => (h1 last (by simp) c hc).1⟩
  · cases segs <;> rfl
  · intro c hc
    rcases List.mem_append.1 hc with hc | hc
    · obtain ⟨x, hx, hc⟩ := List.mem_flatMap.1 hc
      rcases List.mem_cons.1 hc with rfl | hc
      · decide
      · exact (h1 x (by simp [hx]) c hc).2
    · rcases List.mem_cons.1 hc with rfl | hc
      · decide
      · exact (h1 last (by simp) c hc).2

/-- **C139, a directory of libraries**: the answer is one directory, the *last part* of the root; it is the root
exactly if the root has only one part, as `/usr`. -/
theorem C139_root_partial (s root : PyStr) (l : List PyStr) (hr : LegacyRoot s root) (hl : LegacyPath s l) :
    (∃ front x, root = front ++ '/' :: x ∧ (∀ c ∈ x, c ≠ '/') ∧ l = ['/' :: x]) ∧
      (l = [root] ↔ ∀ c ∈ root.tail, c ≠ '/') := by
  obtain ⟨hh, hb, w, tail, hw1, hw2, ht, hs⟩ := hr
  obtain ⟨t, rfl⟩ : ∃ t, root = '/' :: t := by
    cases root with
    | nil => simp at hh
    | cons c t => exact ⟨t, by simpa using hh⟩
  have first : ∃ front x, '/' :: t = front ++ '/' :: x ∧ (∀ c ∈ x, c ≠ '/') ∧ l = ['/' :: x] := by
    cases hl with
    | hit g hg =>
      obtain ⟨front, ⟨_, _, w', tail', _, hw2', ht', hs'⟩, x, rfl, hx⟩ := legacy_root_of_match hg
      exact ⟨front, x, root_unique hw2 hw2' ht ht' (hs.symm.trans hs'), hx, rfl⟩
    | miss hno =>
      obtain ⟨segs, last, h1, h2⟩ := segments t fun c hc => hb c (List.mem_cons_of_mem _ hc)
      exact absurd ⟨segs, last, w, tail, h1, hw1, hw2, ht, by rw [hs, h2], rfl⟩ (hno ('/' :: last))
  refine ⟨first, ?_⟩
  obtain ⟨front, x, h1, h2, rfl⟩ := first
  simp only [List.cons.injEq, and_true, true_and, List.tail_cons]
  constructor
  · rintro rfl
    exact h2
  · intro h
    exact (last_sep_unique (a := front) (b := []) h2 h (by rw [← h1]; rfl)).2

/-- **C139 is false**: for `/opt/cudnn/lib/x86_64-linux-gnu` the search goes to `/cudnn`. -/
theorem C139_root_false : ¬ ∀ (s root : PyStr) (l : List PyStr), LegacyRoot s root → LegacyPath s l → l = [root] := by
  intro h
  have hm : LegacyMatch "/opt/cudnn/lib/x86_64-linux-gnu".toList "/cudnn".toList :=
    ⟨["opt".toList], "cudnn".toList, "x86_64".toList, [], by decide, by decide, by decide, .inl rfl, by decide, by decide⟩
  have h1 := h "/opt/cudnn/lib/x86_64-linux-gnu".toList "/opt/cudnn".toList ["/cudnn".toList]
    ⟨by decide, by decide, "x86_64".toList, [], by decide, by decide, .inl rfl, by decide⟩ (.hit _ hm)
  revert h1
  decide

theorem charSplit_spec (d : Char) (s : PyStr) : ∃ w ws, charSplit d s = w :: ws ∧ (∀ x ∈ w :: ws, ∀ c ∈ x, c ≠ d) ∧
    List.intercalate [d] (w :: ws) = s := by
  induction s with
  | nil => exact ⟨[], [], rfl, by simp, by simp⟩
  | cons c s ih =>
    obtain ⟨w, ws, h1, h2, h3⟩ := ih
    rw [charSplit, h1]
    by_cases e : c = d
    · rw [if_pos e]
      refine ⟨[], w :: ws, rfl, ?_, ?_⟩
      · intro x hx
        rcases List.mem_cons.1 hx with rfl | hx
        · simp
        · exact h2 x hx
      · rw [List.intercalate_cons_cons, h3, e]
        rfl
    · rw [if_neg e]
      refine ⟨c :: w, ws, rfl, ?_, ?_⟩
      · intro x hx
        rcases List.mem_cons.1 hx with rfl | hx
        · intro y hy
          rcases List.mem_cons.1 hy with rfl | hy
          · exact e
          · exact h2 w List.mem_cons_self y hy
        · exact h2 x (List.mem_cons_of_mem _ hx)
      · cases ws with
        | nil =>
          rw [← h3]
          simp
        | cons v ws =>
          rw [List.intercalate_cons_cons] at h3 ⊢
          rw [← h3]
          rfl

/-- **C139, any other value** is a list of directories separated by commas. -/
theorem C139_list (s : PyStr) (l : List PyStr) (hno : ∀ root, ¬ LegacyRoot s root) (hl : LegacyPath s l) :
    l ≠ [] ∧ (∀ x ∈ l, ∀ c ∈ x, c ≠ ',') ∧ List.intercalate [','] l = s := by
  cases hl with
  | hit g hg =>
    obtain ⟨front, hf, _⟩ := legacy_root_of_match hg
    exact absurd hf (hno _)
  | miss _ =>
    obtain ⟨w, ws, h1, h2, h3⟩ := charSplit_spec ',' s
    rw [h1]
    exact ⟨by simp, h2, h3⟩

/-- The value always has an answer, and only one. -/
theorem C139_total (s : PyStr) : ∃! l, LegacyPath s l := by
  by_cases h : ∃ g, LegacyMatch s g
  · obtain ⟨g, hg⟩ := h
    refine ⟨[g], .hit g hg, ?_⟩
    obtain ⟨front, hr, x, rfl, hx⟩ := legacy_root_of_match hg
    rintro l hl
    obtain ⟨⟨f', x', h1, h2, rfl⟩, _⟩ := C139_root_partial s _ l hr hl
    rw [(last_sep_unique hx h2 h1).2]
  · have h' : ∀ g, ¬ LegacyMatch s g := fun g hg => h ⟨g, hg⟩
    refine ⟨_, .miss h', ?_⟩
    rintro l hl
    cases hl with
    | hit g hg => exact absurd hg (h' g)
    | miss _ => rfl

example : LegacyRoot "/usr/lib/x86_64-linux-gnu/".toList "/usr".toList :=
  ⟨by decide, by decide, "x86_64".toList, ['/'], by decide, by decide, .inr rfl, by decide⟩

/-- Specification: the first line that defines `name` defines it as `ds`. -/
def FirstDefines (lines : List PyStr) (name ds : PyStr) : Prop :=
  ∃ before line after, lines = before ++ line :: after ∧ DefinesAs name line ds ∧ ∀ l ∈ before, ∀ e, ¬ DefinesAs name l e

/-- **C138, versions of TensorRT**: a header has a version exactly if it defines all three names; the version consists of
the first definition of each, and other headers are passed over. -/
theorem C138_tensorrt (major minor patch : PyStr) (lines : List PyStr) (v : PyStr) :
    (rtVersion major minor patch lines = .ok (some v) ↔ ∃ a b c, FirstDefines lines major a ∧ FirstDefines lines minor b ∧
      FirstDefines lines patch c ∧ v = a ++ '.' :: (b ++ '.' :: c)) ∧
    (rtVersion major minor patch lines = .ok none ↔ ∃ name ∈ [major, minor, patch], ∀ l ∈ lines, ∀ e, ¬ DefinesAs name l e) := by
  have hfd : ∀ name ds, FirstDefines lines name ds → ds ≠ [] := by
    rintro name ds ⟨_, _, _, _, ⟨_, _, _, _, _, h, _⟩, _⟩
    exact h
  have hiff : ∀ name ds, FirstDefines lines name ds ↔ ds ≠ [] ∧ headerVersion lines name = ds := by
    intro name ds
    constructor
    · intro h
      exact ⟨hfd name ds h, ((C138_header lines name).1 ds (hfd name ds h)).mpr h⟩
    · rintro ⟨h1, h2⟩
      exact ((C138_header lines name).1 ds h1).mp h2
  have hnone : ∀ name, (∀ l ∈ lines, ∀ e, ¬ DefinesAs name l e) ↔ headerVersion lines name = [] := fun name =>
    ((C138_header lines name).2).symm
  simp only [hiff, hnone, rtVersion, threeVersion, List.mem_cons, List.not_mem_nil, or_false, exists_eq_or_imp, exists_eq_left]
  constructor
  · constructor
    · intro h
      split at h
      · cases h
      · rename_i hn
        push Not at hn
        exact ⟨_, _, _, ⟨hn.1, rfl⟩, ⟨hn.2.1, rfl⟩, ⟨hn.2.2, rfl⟩, (Option.some.inj (Except.ok.inj h)).symm⟩
    · rintro ⟨a, b, c, ⟨h1, rfl⟩, ⟨h2, rfl⟩, ⟨h3, rfl⟩, rfl⟩
      rw [if_neg (by tauto)]
  · constructor
    · intro h
      split at h
      · assumption
      · cases h
    · intro h
      rw [if_pos h]

/-- A header without patch level is passed over. -/
example : rtVersion "MAJOR".toList "MINOR".toList "PATCH".toList ["#define MAJOR 7".toList, "#define MINOR 1".toList] = .ok none ∧
    rtVersion "MAJOR".toList "MINOR".toList "PATCH".toList ["#define MAJOR 7".toList, "#define MINOR 1".toList, "#define PATCH 3".toList] =
      .ok (some "7.1.3".toList) := by decide +kernel

end PC
