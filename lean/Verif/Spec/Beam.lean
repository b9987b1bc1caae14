import Mathlib.Analysis.SpecialFunctions.Trigonometric.Basic

/-!
# Specification vocabulary: elementary beam theory

Nothing in this file refers to the model.
-/

namespace SP.Spec

/-- Bending axes: global `x`, global `y`, first and second principal axis. -/
inductive Axis
  | xx
  | yy
  | a11
  | a22

/-- Centroidal inertia data of a section (`phi` in degrees). -/
structure Inertia where
  ixx : ℝ
  iyy : ℝ
  ixy : ℝ
  i11 : ℝ
  i22 : ℝ
  phi : ℝ

/-- Coordinates in axes rotated by `phi` degrees. -/
noncomputable def rotX (phi x y : ℝ) : ℝ :=
  x * Real.cos (phi * Real.pi / 180) + y * Real.sin (phi * Real.pi / 180)
/-- Second coordinate in axes rotated by `phi` degrees. -/
noncomputable def rotY (phi x y : ℝ) : ℝ :=
  y * Real.cos (phi * Real.pi / 180) - x * Real.sin (phi * Real.pi / 180)

/-- Normal stress of Euler-Bernoulli theory at the point `(x, y)` relative to the centroid, for the
bending moment `M` about the axis and the local modulus `E` (all inertias are modulus weighted). -/
noncomputable def bendingStress (I : Inertia) (M E x y : ℝ) : Axis → ℝ
  | .xx => M * E * (I.iyy * y - I.ixy * x) / (I.ixx * I.iyy - I.ixy ^ 2)
  | .yy => M * E * (I.ixy * y - I.ixx * x) / (I.ixx * I.iyy - I.ixy ^ 2)
  | .a11 => M * E * rotY I.phi x y / I.i11
  | .a22 => -(M * E * rotX I.phi x y / I.i22)

/-- Second moment about the axis obtained by rotating the `x` axis by `θ` (radians), from the
components of the inertia tensor. -/
noncomputable def momentAbout (ixx iyy ixy θ : ℝ) : ℝ :=
  ixx * Real.cos θ ^ 2 + iyy * Real.sin θ ^ 2 - 2 * ixy * Real.sin θ * Real.cos θ

/-- Product of inertia in the axes rotated by `θ` (radians). -/
noncomputable def productAbout (ixx iyy ixy θ : ℝ) : ℝ :=
  (ixx - iyy) * Real.sin θ * Real.cos θ + ixy * (Real.cos θ ^ 2 - Real.sin θ ^ 2)

end SP.Spec
