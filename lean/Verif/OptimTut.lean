import Verif.Optim
import Verif.TutGrad

/-!
# Updates of the variables of the network of the tutorial

`optimizer.apply_gradients` (pylib/notebooks/ModelNet40.ipynb:631), variable by variable as
in `Optim`.  The notebook uses `tf.keras.optimizers.Adam` (ModelNet40.ipynb:583); its
first update is that of `RMSprop` with `rho = 0` and another epsilon
(`C162_adam_first` in `Props/OptimTut`), so the same functions describe it.
-/

set_option linter.unusedVariables false

namespace PC

/-- A convolution before the last with its normalisation. -/
noncomputable def LevelTut.rms (ρ ε lr : ℝ) {D : ℕ} (l A : LevelTut D) (g : TutLevelGrads) : LevelTut D where
  conv := l.conv.rms ρ ε lr A.conv g.conv
  bn := l.bn.rms ρ ε lr A.bn g.bn
  sampleRadius := l.sampleRadius
  convRadius := l.convRadius

/-- All of them. -/
noncomputable def tutLevelsRms (ρ ε lr : ℝ) {D : ℕ} : List (LevelTut D) → List (LevelTut D) → List TutLevelGrads → List (LevelTut D)
  | l :: ls, A :: As, g :: gs => l.rms ρ ε lr A g :: tutLevelsRms ρ ε lr ls As gs
  | ls, _, _ => ls

/-- The network after `apply_gradients` with `RMSprop`. -/
noncomputable def NetTut.rms (ρ ε lr : ℝ) {D : ℕ} (N A : NetTut D) (g : TutGrads) : NetTut D where
  levels := tutLevelsRms ρ ε lr N.levels A.levels g.levels
  last := N.last.rms ρ ε lr A.last g.last
  lastSampleRadius := N.lastSampleRadius
  lastConvRadius := N.lastConvRadius
  head := N.head.rms ρ ε lr A.head g.head

/-- The network after the first update with `Adam` (ModelNet40.ipynb:583, 631): the
accumulators are not read, as `rho = 0`; `β₂` is `beta_2`. -/
noncomputable def NetTut.adamFirst (β₂ ε lr : ℝ) {D : ℕ} (N : NetTut D) (g : TutGrads) : NetTut D := N.rms 0 (ε / √(1 - β₂)) lr N g

end PC
