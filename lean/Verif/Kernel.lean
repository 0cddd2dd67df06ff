import Verif.Tensor
import Mathlib.Analysis.Real.Sqrt
import Mathlib.Analysis.SpecialFunctions.Trigonometric.Basic
import Mathlib.LinearAlgebra.Matrix.Determinant.Basic
import Mathlib.LinearAlgebra.Matrix.Notation

/-!
# Kernel points and random rotations (pylib/pc/layers/utils.py:52-236)

Coordinates are real numbers (float32 rounding is not modelled); the random
angles are arguments.
-/

namespace PC

/-- The matrix `Rx` (utils.py:66-68).  `tf.stack(.., axis=1)` makes the listed
vectors the columns. -/
noncomputable def rotX (a : ℝ) : Matrix (Fin 3) (Fin 3) ℝ :=
  !![1, 0, 0; 0, Real.cos a, Real.sin a; 0, -Real.sin a, Real.cos a]

/-- The matrix `Ry` (utils.py:69-71). -/
noncomputable def rotY (a : ℝ) : Matrix (Fin 3) (Fin 3) ℝ :=
  !![Real.cos a, 0, -Real.sin a; 0, 1, 0; Real.sin a, 0, Real.cos a]

/-- The matrix `Rz` (utils.py:72-74). -/
noncomputable def rotZ (a : ℝ) : Matrix (Fin 3) (Fin 3) ℝ :=
  !![Real.cos a, Real.sin a, 0; -Real.sin a, Real.cos a, 0; 0, 0, 1]

/-- `R = Rx Ry Rz` (utils.py:75) for given angles. -/
noncomputable def rotMat (ang : Fin 3 → ℝ) : Matrix (Fin 3) (Fin 3) ℝ :=
  rotX (ang 0) * rotY (ang 1) * rotZ (ang 2)

/-- `random_rotation` (utils.py:52-76) of one row: `points · R`. -/
noncomputable def rotPt (ang : Fin 3 → ℝ) (p : Fin 3 → ℝ) : Fin 3 → ℝ := Matrix.vecMul p (rotMat ang)

/-- `_hexagon` (utils.py:79-100); the last row repeats the fourth. -/
noncomputable def hexagon (scale shift : ℝ) : List (Fin 3 → ℝ) :=
  let phi := Real.sqrt 3 / 2
  [![0, 1, 0], ![0, -1, 0], ![0.5, phi, 0], ![0.5, -phi, 0], ![-0.5, phi, 0], ![0.5, -phi, 0]].map
    (fun p => ![p 0 * scale, p 1 * scale, p 2 * scale + shift])

/-- `_pentagon` (utils.py:103-126). -/
noncomputable def pentagon (scale shift : ℝ) : List (Fin 3 → ℝ) :=
  let c1 := (Real.sqrt 5 - 1) / 4
  let c2 := (Real.sqrt 5 + 1) / 4
  let s1 := Real.sqrt (10 + 2 * Real.sqrt 5) / 4
  let s2 := Real.sqrt (10 - 2 * Real.sqrt 5) / 4
  [![1, 0, 0], ![c1, s1, 0], ![c1, -s1, 0], ![-c2, s2, 0], ![-c2, -s2, 0]].map
    (fun p => ![p 0 * scale, p 1 * scale, p 2 * scale + shift])

/-- The unrotated kernel points of `spherical_kernel_points` (utils.py:167-216).
For 13 points `tf.sqrt(5)` (line 188) is applied to an integer tensor, which
TensorFlow rejects. -/
noncomputable def basePoints (n : ℕ) : Except Err (List (Fin 3 → ℝ)) :=
  if n = 5 then
    .ok [![0, 0, 0], ![0, 0, 1], ![Real.sqrt (8 / 9), 0, -1 / 3],
      ![-Real.sqrt (2 / 9), Real.sqrt (2 / 3), -1 / 3], ![-Real.sqrt (2 / 9), -Real.sqrt (2 / 3), -1 / 3]]
  else if n = 7 then
    .ok [![0, 0, 0], ![1, 0, 0], ![-1, 0, 0], ![0, 1, 0], ![0, -1, 0], ![0, 0, 1], ![0, 0, -1]]
  else if n = 13 then .error .invalidArgument
  else if n = 15 then
    .ok ([![0, 0, 0], ![0, 0, 1], ![0, 0, -1]] ++ hexagon 0.5 (Real.sqrt 3 / 2) ++
      (hexagon (-0.5) (Real.sqrt 3 / 2)).map (fun p => ![p 1, p 0, p 2]))
  else if n = 18 then
    .ok ([![0, 0, 0], ![0, 0, 1], ![0, 0, -1]] ++ pentagon (1 / Real.sqrt 2) 0.5 ++
      (pentagon 1 0).map (fun p => -p) ++ pentagon (-1 / Real.sqrt 2) 0.5)
  else .error .valueError

/-- `spherical_kernel_points` (utils.py:150-220); `rot` are the random angles, if
rotation is asked for. -/
noncomputable def sphericalKernelPoints (n : ℕ) (rot : Option (Fin 3 → ℝ)) : Except Err (List (Fin 3 → ℝ)) :=
  match basePoints n with
  | .error e => .error e
  | .ok l =>
    match rot with
    | none => .ok l
    | some ang => .ok (l.map (rotPt ang))

/-- The points the icosahedron branch (utils.py:189-201) would build if
`tf.sqrt(5)` were accepted. -/
noncomputable def icosahedron : List (Fin 3 → ℝ) :=
  let phi := (1 + Real.sqrt 5) / 2
  [![0, 0, 0], ![0, 1, phi], ![0, 1, -phi], ![0, -1, phi], ![0, -1, -phi], ![1, phi, 0], ![1, -phi, 0],
    ![-1, phi, 0], ![-1, -phi, 0], ![phi, 0, 1], ![-phi, 0, 1], ![phi, 0, -1], ![-phi, 0, -1]]

section
variable {K : Type*} [Field K]

/-- Entry `i` of `np.linspace(0, 1, m)`: `i / (m - 1)` (only 0 for `m = 1`). -/
def linspace01 (m i : ℕ) : K := if m = 1 then 0 else i / ((m : K) - 1)

/-- `cube_kernel_points` (utils.py:223-236): `meshgrid` (default `xy` indexing,
so the first axis of the arrays runs over y) and row-major flattening. -/
def cubeKernelPoints (m : ℕ) : List (Fin 3 → K) :=
  (List.range (m * m * m)).map (fun r =>
    ![linspace01 m (r / m % m), linspace01 m (r / (m * m)), linspace01 m (r % m)])

end
end PC
