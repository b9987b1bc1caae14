import Verif.Model.Stress
import Verif.Spec.Transform

/-!
# Specification vocabulary: stresses in a turned or scaled section

Only data types (`Actions`, `StressComp`, `Combined`) are taken from the model.
-/

namespace SP.Spec

/-- The actions on a section that has been turned by `θ`: the moments `(mxx, myy)` and the shear forces
`(vx, vy)` are turned as vectors; the axial force, the torque and the moments `m11`, `m22` about the axes of the
section are the same. -/
noncomputable def turnedActions (θ : ℝ) (A : Actions) : Actions :=
  { A with
    mxx := (rotation θ (A.mxx, A.myy)).1, myy := (rotation θ (A.mxx, A.myy)).2
    vx := (rotation θ (A.vx, A.vy)).1, vy := (rotation θ (A.vx, A.vy)).2 }

/-- The actions on a section that has been scaled by `k`: forces `k²` times, moments `k³` times as large. -/
def scaledActions (k : ℝ) (A : Actions) : Actions :=
  ⟨k ^ 2 * A.n, k ^ 3 * A.mxx, k ^ 3 * A.myy, k ^ 3 * A.m11, k ^ 3 * A.m22, k ^ 3 * A.mzz, k ^ 2 * A.vx, k ^ 2 * A.vy⟩

/-- The stresses (`c'`, `d'`: individual and combined components) are `c`, `d` turned by `θ`: normal stresses are the same,
shear stresses are turned as vectors, and so all invariants are the same. -/
structure TurnedStress (θ : ℝ) (c c' : StressComp) (d d' : Combined) : Prop where
  axial : c'.zzN = c.zzN
  bending : d'.zzM = d.zzM
  torsion : (c'.zxMzz, c'.zyMzz) = rotation θ (c.zxMzz, c.zyMzz)
  shear : (d'.zxV, d'.zyV) = rotation θ (d.zxV, d.zyV)
  normal : d'.zz = d.zz
  total : (d'.zx, d'.zy) = rotation θ (d.zx, d.zy)
  zxyMzz : d'.zxyMzz = d.zxyMzz
  zxyV : d'.zxyV = d.zxyV
  zxy : d'.zxy = d.zxy
  s11 : d'.s11 = d.s11
  s33 : d'.s33 = d.s33
  vonMises : d'.vm = d.vm

end SP.Spec
