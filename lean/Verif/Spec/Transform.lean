import Verif.Spec.Field

/-!
# Specification vocabulary: images of sections under affine maps

Only the shape of the data is taken from the model.
-/

namespace SP.Spec

/-- The plane map `(x, y) ↦ (a x + b y + e, c x + d y + f)`. -/
def affine (a b c d e f : ℝ) (p : ℝ × ℝ) : ℝ × ℝ :=
  (a * p.1 + b * p.2 + e, c * p.1 + d * p.2 + f)

/-- Translation by `(dx, dy)`. -/
def translation (dx dy : ℝ) : ℝ × ℝ → ℝ × ℝ := affine 1 0 0 1 dx dy
/-- Rotation about the origin by `θ` radians, counter-clockwise. -/
noncomputable def rotation (θ : ℝ) : ℝ × ℝ → ℝ × ℝ :=
  affine (Real.cos θ) (-Real.sin θ) (Real.sin θ) (Real.cos θ) 0 0
/-- Scaling about the origin. -/
def scaling (k : ℝ) : ℝ × ℝ → ℝ × ℝ := affine k 0 0 k 0 0
/-- Mirroring about the `y` axis. -/
def mirrorY : ℝ × ℝ → ℝ × ℝ := affine (-1) 0 0 1 0 0
/-- Mirroring about the `x` axis. -/
def mirrorX : ℝ × ℝ → ℝ × ℝ := affine 1 0 0 (-1) 0 0

/-- Reflection about the line through `p0` with the direction `(cos θ, sin θ)`. -/
noncomputable def reflection (θ : ℝ) (p0 : ℝ × ℝ) : ℝ × ℝ → ℝ × ℝ :=
  affine (Real.cos (2 * θ)) (Real.sin (2 * θ)) (Real.sin (2 * θ)) (-Real.cos (2 * θ))
    (p0.1 - Real.cos (2 * θ) * p0.1 - Real.sin (2 * θ) * p0.2)
    (p0.2 - Real.sin (2 * θ) * p0.1 + Real.cos (2 * θ) * p0.2)

/-- The second mesh, however it is triangulated, covers the image of the first one and has the same
material at corresponding points. -/
structure ImageUnder (φ : ℝ × ℝ → ℝ × ℝ) {n n' : ℕ} (els : List (Tri6 n)) (els' : List (Tri6 n')) :
    Prop where
  region : region els' = φ '' region els
  field : ∀ prop : Material → ℝ, ∃ E E', IsField els prop E ∧ IsField els' prop E' ∧
    ∀ p, E' (φ p) = E p

end SP.Spec
