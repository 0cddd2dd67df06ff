import Mathlib.Analysis.SpecialFunctions.Exp

/-!
# Activation functions of the CUDA code (`custom_ops/tfg_custom_ops/shared/cc/kernels/nn_utils.h`)

Exact real arithmetic.  No kernel of the library uses these functions at present.
-/

namespace PC

/-- The template parameter `A` with a specialisation. -/
inductive Act
  | relu | leaky | elu | exp

/-- `activation_function_struct<A>::forward` (nn_utils.h:45-48, 59-62, 73-76, 87-90); `LEAKY_RELU_WEIGHT` is 0.2 and
`ELU_WEIGHT` is 1 (lines 23, 26). -/
noncomputable def Act.forward : Act → ℝ → ℝ
  | .relu, x => max x 0
  | .leaky, x => if 0 ≤ x then x else x * (2 / 10)
  | .elu, x => if x ≤ 0 then 1 * (Real.exp x - 1) else x
  | .exp, x => Real.exp x

/-- `activation_function_struct<A>::backward` (nn_utils.h:50-53, 64-67, 78-81, 92-95). -/
noncomputable def Act.backward : Act → ℝ → ℝ
  | .relu, y => if 0 < y then 1 else 0
  | .leaky, y => if 0 < y then 1 else 2 / 10
  | .elu, y => if y ≤ 0 then 1 + y else 1
  | .exp, y => y

end PC
