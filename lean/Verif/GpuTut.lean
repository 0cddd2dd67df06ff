import Verif.GpuNet
import Verif.Tutorial

/-!
# The network of the tutorial on the GPU (pylib/notebooks/ModelNet40.ipynb)

`Tutorial.lean` with the CUDA operations, as `GpuNet.lean` for the training scripts.
-/

namespace PC

section
variable {k : ℕ}

/-- The loop over the convolutions (ModelNet40.ipynb:529-536) on the GPU; see `netTutLoop`. -/
def gpuNetTutLoop (E : NetEnv) (Ws : ℕ) (N : NetTut (k + 2)) : (o : CloudObj (Fin (k + 2) → ℝ)) →
    (Fin o.c.n → ℕ → ℝ) → List (CloudObj (Fin (k + 2) → ℝ)) → List (LevelTut (k + 2)) →
    Except Err ((o : CloudObj (Fin (k + 2) → ℝ)) × (Fin o.c.n → ℕ → ℝ)) → Prop
  | o, f, [o'], [], res => ∃ r, N.last.GpuCall E Ws o.c o'.c N.lastConvRadius f r ∧
      match r with
      | .error e => res = .error e
      | .ok g => res = .ok ⟨o', g⟩
  | o, f, o' :: os, l :: ls, res => ∃ r, l.conv.GpuCall E Ws o.c o'.c l.convRadius f r ∧
      match r with
      | .error e => res = .error e
      | .ok g => gpuNetTutLoop E Ws N o' (E.bnAct l.bn g) os ls res
  | _, _, _, _, res => res = .error .indexError

/-- `mymodel.__call__` on a hierarchy (ModelNet40.ipynb:528-544) on the GPU; see `NetTut.logits`. -/
def NetTut.GpuLogits (E : NetEnv) (Ws : ℕ) (N : NetTut (k + 2)) (clouds : List (CloudObj (Fin (k + 2) → ℝ)))
    (feats : List (List (ℕ → ℝ))) (res : Except Err (List (ℕ → ℝ))) : Prop :=
  match clouds with
  | o :: os =>
    match (o.flattenFeatures feats).1 with
    | .error e => res = .error e
    | .ok f0 => ∃ r, gpuNetTutLoop E Ws N o f0 os N.levels r ∧
      match r with
      | .error e => res = .error e
      | .ok ⟨p, f⟩ => res = .ok (List.ofFn (N.head.runTut E
          (fun (b : Fin p.c.B) ch => (globalPool .mean p.c f b ch).getD 0)))
  | _ => res = .error .indexError

/-- `mymodel.__call__` (ModelNet40.ipynb:503-544) on the GPU. -/
def NetTut.GpuCall (E : NetEnv) (Ws : ℕ) (N : NetTut (k + 2)) (lower : String → String) (mode : String) (V : ℕ)
    (points : List (List (Fin (k + 2) → ℝ))) (feats : List (List (ℕ → ℝ)))
    (res : Except Err (List (ℕ → ℝ))) : Prop :=
  match CloudObj.newPadded [points.length] V points none none with
  | .error e => res = .error e
  | .ok o => ∃ r, GpuLevels Ws E.eps lower mode o.batchShape o N.sizes r ∧
      match r with
      | .error e => res = .error e
      | .ok os => N.GpuLogits E Ws (o :: os) feats res

end
end PC
