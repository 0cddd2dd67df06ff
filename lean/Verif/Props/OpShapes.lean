import Verif.OpShapes
import Verif.Props.OpChecks
import Verif.CudaGrid

/-!
# C113: static shapes and gradients of the custom operations
-/

namespace PC

theorem bind_ok {ε α β : Type} {x : Except ε α} {f : α → Except ε β} {b : β} (h : (x >>= f) = .ok b) :
    ∃ a, x = .ok a ∧ f a = .ok b := by
  cases x with
  | error e => cases h
  | ok a => exact ⟨a, rfl, h⟩

theorem dimSize_ok {s : List ℕ} {i n : ℕ} : dimSize s i = .ok n ↔ s[i]? = some n := by
  unfold dimSize
  cases s[i]? <;> simp

theorem PShape.Fits.dim {p : PShape} {s : List ℕ} (h : p.Fits s) {i n : ℕ} (hn : s[i]? = some n) :
    ∃ d, p.dim i = some d ∧ ∀ x, d = some x → x = n := by
  cases p with
  | none => exact ⟨none, rfl, by simp⟩
  | some l =>
    have h : List.Forall₂ (fun d n => ∀ x, d = some x → x = n) l s := h
    have hi : i < s.length := (List.getElem?_eq_some_iff.1 hn).1
    have hl : i < l.length := by rw [h.length_eq]; exact hi
    refine ⟨l[i], ?_, ?_⟩
    · show l[i]? = _
      exact List.getElem?_eq_getElem hl
    · have := (List.forall₂_iff_get.1 h).2 i hl hi
      rw [List.getElem?_eq_getElem hi] at hn
      cases hn
      exact this

/-- What is known statically agrees with the outputs: the shape function does not read
outside its inputs and describes all outputs. -/
def Agree (inf : Option (List PShape)) (out : Except OpFail (List (List ℕ))) : Prop :=
  ∃ ps ss, inf = some ps ∧ out = .ok ss ∧ List.Forall₂ PShape.Fits ps ss

/-- **C113, keys.** -/
theorem C113_keys {W bs : ℕ} {pts ids saabb nc invCs : List ℕ} (h : computeKeysOp W bs pts ids saabb nc invCs = .ok ())
    {p : PShape} (hp : p.Fits pts) : Agree (keysInfer p) (keysOut pts) := by
  unfold computeKeysOp at h
  obtain ⟨n, h1, h⟩ := bind_ok h
  obtain ⟨d, e1, e2⟩ := hp.dim (dimSize_ok.1 h1)
  refine ⟨[some [d]], [[n]], ?_, ?_, ?_⟩
  · unfold keysInfer; rw [e1]; rfl
  · unfold keysOut; rw [h1]; rfl
  · exact .cons (.cons e2 .nil) .nil

/-- Specification: position of an entry in a tensor stored row by row. -/
def flatAddress (shape idx : List ℕ) : ℕ := (shape.zip idx).foldl (fun a p => a * p.1 + p.2) 0

/-- **C113, access structure.**  Moreover the entry `(b, x, y, j)` of the output is
the component `j` of the pair that the kernels address for cell `(x, y)` of
element `b`. -/
theorem C113_ds (batchSize c0 c1 : ℕ) : Agree (dsInfer batchSize) (dsOut batchSize c0 c1) ∧
    ∀ s, dsOut batchSize c0 c1 = .ok [s] → ∀ {D : ℕ} (nc cell : Fin (D + 2) → ℤ), nc 0 = c0 → nc 1 = c1 →
      ∀ b x y j : ℕ, cell 0 = x → cell 1 = y → (flatAddress s [b, x, y, j] : ℤ) = 2 * cuDsFromCell b cell nc + j := by
  refine ⟨⟨_, _, rfl, rfl, .cons (.cons (by simp) (.cons (by simp) (.cons (by simp) (.cons (by simp) .nil)))) .nil⟩, ?_⟩
  intro s hs D nc cell h0 h1 b x y j hx hy
  cases hs
  unfold cuDsFromCell
  have e0 : ∀ v : Fin (D + 2) → ℤ, ptAt v 0 = v 0 := fun v => by simp [ptAt]
  have e1 : ∀ v : Fin (D + 2) → ℤ, ptAt v 1 = v 1 := fun v => by simp [ptAt]
  rw [e0, e1, e0, e1, h0, h1, hx, hy]
  simp only [flatAddress, List.zip_cons_cons, List.zip_nil_right, List.foldl_cons, List.foldl_nil]
  push_cast
  ring

/-- **C113, neighbours.** -/
theorem C113_find {W bs : ℕ} {samples ids pts keys ds nc saabb invCs invR : List ℕ} {lim : Bool}
    (h : findNeighborsOp W bs samples ids pts keys ds nc saabb invCs invR lim = .ok ())
    {p : PShape} (hp : p.Fits samples) (numNeighbors : ℕ) : Agree (findInfer p) (findOut samples numNeighbors) := by
  unfold findNeighborsOp at h
  obtain ⟨n, h1, h⟩ := bind_ok h
  obtain ⟨d, e1, e2⟩ := hp.dim (dimSize_ok.1 h1)
  refine ⟨[some [d], some [none, some 2]], [[n], [numNeighbors, 2]], ?_, ?_, ?_⟩
  · unfold findInfer; rw [e1]; rfl
  · unfold findOut; rw [h1]; rfl
  · exact .cons (.cons e2 .nil) (.cons (.cons (by simp) (.cons (by simp) .nil)) .nil)

/-- **C113, sampling**, in both modes. -/
theorem C113_sampling {W bs : ℕ} {mode : ℤ} {pts ids keys nc nb starts : List ℕ}
    (h : samplingOp W bs mode pts ids keys nc nb starts = .ok ())
    {p : PShape} (hp : p.Fits pts) (num : ℕ) : Agree (samplingInfer p) (samplingOut mode pts num) := by
  unfold samplingOp at h
  obtain ⟨_, _, h⟩ := bind_ok h
  obtain ⟨n, h1, h⟩ := bind_ok h
  obtain ⟨D, h2, h⟩ := bind_ok h
  obtain ⟨d, e1, e2⟩ := hp.dim (dimSize_ok.1 h2)
  refine ⟨[some [none, d], some [none], some [none]], if mode = 0 then [[num, D], [num], [num]] else [[num, D], [num], [1]],
    ?_, ?_, ?_⟩
  · unfold samplingInfer; rw [e1]; rfl
  · unfold samplingOut; rw [h2]; rfl
  · have hu : ∀ x, PShape.Fits (some [none]) [x] := fun x => .cons (by simp) .nil
    have hd : PShape.Fits (some [none, d]) [num, D] := .cons (by simp) (.cons e2 .nil)
    split
    · exact .cons hd (.cons (hu _) (.cons (hu _) .nil))
    · exact .cons hd (.cons (hu _) (.cons (hu _) .nil))

/-- **C113, densities.** -/
theorem C113_pdf {W bs : ℕ} {mode : ℤ} {pts nb starts invBw invR : List ℕ}
    (h : computePdfOp W bs mode pts nb starts invBw invR = .ok ()) {p : PShape} (hp : p.Fits starts) :
    Agree (pdfInfer p) (pdfOut starts) := by
  unfold computePdfOp at h
  obtain ⟨_, _, h⟩ := bind_ok h
  obtain ⟨_, _, h⟩ := bind_ok h
  obtain ⟨n, h1, h⟩ := bind_ok h
  obtain ⟨d, e1, e2⟩ := hp.dim (dimSize_ok.1 h1)
  refine ⟨[some [d]], [[n]], ?_, ?_, ?_⟩
  · unfold pdfInfer; rw [e1]; rfl
  · unfold pdfOut; rw [h1]; rfl
  · exact .cons (.cons e2 .nil) .nil

/-- **C113, gradients of the densities**: static shape. -/
theorem C113_pdf_grads {W bs : ℕ} {mode : ℤ} {pts nb starts invBw invR grads : List ℕ}
    (h : computePdfGradsOp W bs mode pts nb starts invBw invR grads = .ok ()) {p : PShape} (hp : p.Fits pts) :
    Agree (pdfGradsInfer p) (pdfGradsOut pts) := by
  unfold computePdfGradsOp at h
  obtain ⟨_, _, h⟩ := bind_ok h
  obtain ⟨n, h1, h⟩ := bind_ok h
  obtain ⟨_, _, h⟩ := bind_ok h
  obtain ⟨_, _, h⟩ := bind_ok h
  obtain ⟨D, h2, h⟩ := bind_ok h
  obtain ⟨d, e1, e2⟩ := hp.dim (dimSize_ok.1 h1)
  obtain ⟨d', e1', e2'⟩ := hp.dim (dimSize_ok.1 h2)
  refine ⟨[some [d, d']], [[n, D]], ?_, ?_, ?_⟩
  · unfold pdfGradsInfer; rw [e1, e1']; rfl
  · unfold pdfGradsOut; rw [h1, h2]; rfl
  · exact .cons (.cons e2 (.cons e2' .nil)) .nil

/-- **C113, projection.** -/
theorem C113_proj {W : ℕ} {basis feats nb starts : List ℕ} (h : basisProjOp W basis feats nb starts = .ok ())
    {p q r : PShape} (hp : p.Fits basis) (hq : q.Fits feats) (hr : r.Fits starts) :
    Agree (projInfer p q r) (projOut basis feats starts) := by
  unfold basisProjOp at h
  obtain ⟨_, _, h⟩ := bind_ok h
  obtain ⟨m, h1, h⟩ := bind_ok h
  obtain ⟨_, _, h⟩ := bind_ok h
  obtain ⟨b, h2, h⟩ := bind_ok h
  obtain ⟨c, h3, h⟩ := bind_ok h
  obtain ⟨d1, e1, f1⟩ := hr.dim (dimSize_ok.1 h1)
  obtain ⟨d2, e2, f2⟩ := hp.dim (dimSize_ok.1 h2)
  obtain ⟨d3, e3, f3⟩ := hq.dim (dimSize_ok.1 h3)
  refine ⟨[some [d1, d3, d2]], [[m, c, b]], ?_, ?_, ?_⟩
  · unfold projInfer; rw [e1, e3, e2]; rfl
  · unfold projOut; rw [h1, h3, h2]; rfl
  · exact .cons (.cons f1 (.cons f3 (.cons f2 .nil))) .nil

/-- **C113, gradients of the projection**, for matrices.  Missing: the operation also
accepts tensors of higher rank, see `C113_proj_grads_false`. -/
theorem C113_proj_grads_partial {W : ℕ} {basis feats nb starts grads : List ℕ}
    (h : basisProjGradsOp W basis feats nb starts grads = .ok ()) (hb : basis.length = 2) (hf : feats.length = 2)
    {p q : PShape} (hp : p.Fits basis) (hq : q.Fits feats) :
    Agree (projGradsInfer p q) (projGradsOut basis feats nb) ∧ projGradsOut basis feats nb = .ok [basis, feats] := by
  have key : projGradsOut basis feats nb = .ok [basis, feats] := by
    unfold basisProjGradsOp at h
    obtain ⟨n, h1, h⟩ := bind_ok h
    obtain ⟨_, _, h⟩ := bind_ok h
    obtain ⟨M, h2, h⟩ := bind_ok h
    obtain ⟨b, h3, h⟩ := bind_ok h
    obtain ⟨c, h4, h⟩ := bind_ok h
    obtain ⟨_, _, h⟩ := bind_ok h
    obtain ⟨_, _, h⟩ := bind_ok h
    obtain ⟨M', h5, h⟩ := bind_ok h
    obtain ⟨_, h6, h⟩ := bind_ok h
    rw [opRequires_eq_ok, beq_iff_eq] at h6
    unfold projGradsOut
    rw [h1, h2, h3, h4]
    rw [dimSize_ok] at h1 h3 h4 h5
    match basis, hb, feats, hf with
    | [x, y], _, [z, w], _ =>
      simp at h1 h3 h4 h5
      subst h1 h3 h4 h5 h6
      rfl
  exact ⟨⟨_, _, rfl, key, .cons hp (.cons hq .nil)⟩, key⟩

/-- **C113, gradients of the projection, negative**: with a tensor of rank three the
operation runs and the shape it returns contradicts the static one. -/
theorem C113_proj_grads_false : ¬ ∀ (W : ℕ) (basis feats nb starts grads : List ℕ) (p q : PShape),
    basisProjGradsOp W basis feats nb starts grads = .ok () → p.Fits basis → q.Fits feats →
    Agree (projGradsInfer p q) (projGradsOut basis feats nb) := by
  intro hall
  obtain ⟨ps, ss, h1, h2, h3⟩ := hall 1 [3, 8, 2] [5, 1] [3, 2] [2] [2, 1, 8] (some [some 3, some 8, some 2]) none
    (by decide) (.cons (by simp) (.cons (by simp) (.cons (by simp) .nil))) trivial
  have e : projGradsOut [3, 8, 2] [5, 1] [3, 2] = .ok [[3, 8], [5, 1]] := by decide
  rw [e] at h2
  cases h2
  unfold projGradsInfer at h1
  cases h1
  cases h3 with
  | cons h _ =>
    have h : List.Forall₂ _ _ _ := h
    have := h.length_eq
    simp at this

/-- **C113, backward after forward (densities).** If the density operation has run, its
gradient function runs for every upstream gradient of the shape of the output; it returns
one entry per input, and the gradient of the points has the shape of the points. -/
theorem C113_pdf_backward {W bs : ℕ} {mode : ℤ} {pts nb starts invBw invR : List ℕ}
    (h : computePdfOp W bs mode pts nb starts invBw invR = .ok ()) (hpts : pts.length = 2) {out : List (List ℕ)}
    (hout : pdfOut starts = .ok out) {grad : List ℕ} (hg : out[0]? = some grad) :
    pdfGradFn W bs mode pts nb starts invBw invR grad = .ok [some pts, none, none, none, none] := by
  unfold pdfOut at hout
  obtain ⟨m, hm, hout⟩ := bind_ok hout
  cases hout
  cases hg
  unfold computePdfOp at h
  obtain ⟨_, h0, h⟩ := bind_ok h
  obtain ⟨n, h1, h⟩ := bind_ok h
  obtain ⟨m', h2, h⟩ := bind_ok h
  rw [hm] at h2
  cases h2
  obtain ⟨x, h3, h⟩ := bind_ok h
  obtain ⟨D, h4, h⟩ := bind_ok h
  obtain ⟨_, h5, h⟩ := bind_ok h
  obtain ⟨_, h6, h⟩ := bind_ok h
  obtain ⟨y, h7, h⟩ := bind_ok h
  obtain ⟨_, h8, h⟩ := bind_ok h
  obtain ⟨z, h9, h⟩ := bind_ok h
  obtain ⟨_, h10, h⟩ := bind_ok h
  obtain ⟨_, h11, h⟩ := bind_ok h
  have hpd : pdfGradsOut pts = .ok [pts] := by
    unfold pdfGradsOut
    rw [h1, h4]
    rw [dimSize_ok] at h1 h4
    match pts, hpts with
    | [a, b], _ =>
      simp at h1 h4
      subst h1 h4
      rfl
  have hop : computePdfGradsOp W bs mode pts nb starts invBw invR [m] = .ok () := by
    unfold computePdfGradsOp
    simp only [h0, h1, hm, h3, h4, h5, h6, h7, h8, h9, h10, h11, bind, Except.bind]
    simpa [dimSize, opRequires] using h
  unfold pdfGradFn
  rw [hop, hpd]
  rfl

/-- **C113, backward after forward (projection).** The same for the projection: gradients
of the basis and of the features, in their shapes. -/
theorem C113_proj_backward {W : ℕ} {basis feats nb starts : List ℕ} (h : basisProjOp W basis feats nb starts = .ok ())
    (hb : basis.length = 2) (hf : feats.length = 2) {out : List (List ℕ)}
    (hout : projOut basis feats starts = .ok out) {grad : List ℕ} (hg : out[0]? = some grad) :
    projGradFn W basis feats nb starts grad = .ok [some basis, some feats, none, none] := by
  unfold projOut at hout
  obtain ⟨m, hm, hout⟩ := bind_ok hout
  obtain ⟨c, hc, hout⟩ := bind_ok hout
  obtain ⟨b, hbb, hout⟩ := bind_ok hout
  cases hout
  cases hg
  have hop : basisProjGradsOp W basis feats nb starts [m, c, b] = .ok () := by
    unfold basisProjOp at h
    obtain ⟨n, h1, h⟩ := bind_ok h
    obtain ⟨m', h2, h⟩ := bind_ok h
    rw [hm] at h2
    cases h2
    obtain ⟨M, h3, h⟩ := bind_ok h
    obtain ⟨b', h4, h⟩ := bind_ok h
    rw [hbb] at h4
    cases h4
    obtain ⟨c', h5, h⟩ := bind_ok h
    rw [hc] at h5
    cases h5
    obtain ⟨_, h6, h⟩ := bind_ok h
    obtain ⟨_, h7, h⟩ := bind_ok h
    obtain ⟨M', h8, h⟩ := bind_ok h
    obtain ⟨_, h9, h⟩ := bind_ok h
    obtain ⟨_, h10, h⟩ := bind_ok h
    unfold basisProjGradsOp
    simp only [h1, hm, h3, hbb, hc, h6, h7, h8, h9, h10, bind, Except.bind]
    simpa [opRequires] using h
  have key := (C113_proj_grads_partial hop hb hf (p := none) (q := none) trivial trivial).2
  unfold projGradFn
  rw [hop, key]
  rfl

/-- The hypotheses are met by the calls of a layer: 5 points in the space, 3 samples, 7
neighbours, 16 basis functions, 8 features. -/
example : basisProjOp 4 [7, 16] [5, 8] [7, 2] [3] = .ok () ∧ projOut [7, 16] [5, 8] [3] = .ok [[3, 8, 16]] ∧
    computePdfOp 4 64 0 [5, 3] [9, 2] [5] [3] [3] = .ok () ∧
    PShape.Fits (some [none, some 8]) [5, 8] := by
  refine ⟨by decide, by decide, by decide, .cons (by simp) (.cons (by simp) .nil)⟩

end PC
