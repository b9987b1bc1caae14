import Verif.Spec.StressDict

/-!
# Specification of the stress plots

The documented values of the argument `stress`, with the key of the stress in the dictionaries of
`get_stress`: `(action)_(direction)` shows `sig_(direction)_(action)`, `(direction)` shows `sig_(direction)`.
-/

namespace SP.Spec

/-- Values of `stress` for `plot_stress`, and the keys of the stresses they show. -/
def contourKeys : List (String × String) :=
  (["n", "mxx", "myy", "m11", "m22", "m"].map fun a => (a ++ "_zz", "sig_zz_" ++ a)) ++
  (["mzz", "vx", "vy", "v"].flatMap fun a =>
    ["zx", "zy", "zxy"].map fun d => (a ++ "_" ++ d, "sig_" ++ d ++ "_" ++ a)) ++
  (["zz", "zx", "zy", "zxy", "11", "33", "vm"].map fun d => (d, "sig_" ++ d))

/-- Values of `stress` for `plot_stress_vector`, and the keys of the two components and the resultant. -/
def vectorKeys : List (String × (String × String × String)) :=
  (["mzz", "vx", "vy", "v"].map fun a => (a ++ "_zxy", "sig_zx_" ++ a, "sig_zy_" ++ a, "sig_zxy_" ++ a)) ++
  [("zxy", "sig_zx", "sig_zy", "sig_zxy")]

/-- The materials to plot: all, or those of the list. -/
def Selected (mats : Option (List Material)) (m : Material) : Prop := ∀ l, mats = some l → m ∈ l

/-- Fifteen values, evenly spaced, from `a` to `b`. -/
def EvenlySpaced (v : List ℝ) (a b : ℝ) : Prop :=
  v.length = 15 ∧ v[0]? = some a ∧ v[14]? = some b ∧ ∀ k x y, v[k]? = some x → v[k + 1]? = some y → y - x = (b - a) / 14

end SP.Spec
