import Verif.Model.Analyses
import Verif.Spec.Getters

/-!
# Specification vocabulary for histories of calls
-/

namespace SP.Spec

/-- The call is a geometric analysis. -/
def Geometric : Env.Call → Prop
  | .geometric => True
  | _ => False

/-- The call is a frame analysis. -/
def Frame : Env.Call → Prop
  | .frame _ => True
  | _ => False

/-- The call is a warping analysis. -/
def Warping : Env.Call → Prop
  | .warping _ => True
  | _ => False

/-- A stress analysis (`calculate_stress` or `get_stress_at_points`) for the given actions. -/
def Stress (a : Actions) : Env.Call → Prop
  | .stress b => b = a
  | .stressPoints _ _ b _ => b = a
  | _ => False

/-- The actions contain shear or torsion. -/
def ShearOrTorsion (a : Actions) : Prop := a.vx ≠ 0 ∨ a.vy ≠ 0 ∨ a.mzz ≠ 0

/-- The getters for results of the geometric analysis. -/
def geometricGetters : List Getter :=
  [.getArea, .getPerimeter, .getMass, .getEa, .getQ, .getEq, .getIg, .getEig, .getC, .getIc, .getEic,
   .getZ, .getEz, .getMy, .getRc, .getIp, .getEip, .getPhi, .getZp, .getEzp, .getMyP, .getRp, .getNuEff,
   .getEEff, .getGEff]

end SP.Spec
