import Mathlib.Data.Real.Basic
import Mathlib.Algebra.BigOperators.Group.List.Basic
import Mathlib.Algebra.BigOperators.Fin

/-!
# Shared vocabulary of the model

Exceptions as values and the accumulation loops used all over the Python code.
-/

namespace SP

/-- Python exception classes that the modelled code raises (the messages are not modelled).
(the `raise` statements of section.py, solver.py, geometry.py and the other files of src/sectionproperties.) -/
inductive PyErr where
  | valueError
  | runtimeError
  | typeError
  | indexError
  | zeroDivision
  deriving DecidableEq, Repr

/-- The loop `acc = 0.0; for x in xs: acc += f(x)`, which every accumulation loop of `fea.py` and
`section.py` is an instance of (for instance fea.py 285-308).  A Python loop with several
independent accumulators is modelled by several `accum`s over the same list. -/
def accum {α : Type*} {M : Type*} [AddCommMonoid M] (xs : List α) (f : α → M) : M :=
  xs.foldl (fun acc x => acc + f x) 0

/-- pre/pre.py 11-64: the frozen dataclass `Material` (the plot colour is kept because it takes
part in `==`). -/
structure Material where
  name : String
  elasticModulus : ℝ
  poissonsRatio : ℝ
  yieldStrength : ℝ
  density : ℝ
  color : String

/-- pre/pre.py 67-76: `Material.shear_modulus`. -/
noncomputable def Material.shearModulus (m : Material) : ℝ :=
  m.elasticModulus / (2 * (1 + m.poissonsRatio))

/-- pre/pre.py 79: `DEFAULT_MATERIAL = Material("default", 1, 0, 1, 1, "w")`. -/
def defaultMaterial : Material := ⟨"default", 1, 0, 1, 1, "w"⟩

end SP
