import Verif.Spec.Stress

/-!
# Specification of the stress dictionaries of `get_stress`

Each entry is "the stress in some direction resulting from some actions": what the stress analysis
reports as total stress in that direction if only those actions are applied.
-/

namespace SP.Spec

/-- No actions. -/
def noActions : Actions := ⟨0, 0, 0, 0, 0, 0, 0, 0⟩

/-- A documented entry: its key, the part of the actions it results from, and the key of the total
stress in its direction. -/
structure StressEntry where
  key : String
  part : Actions → Actions
  total : String

/-- The bending part, the torsion part and the shear part of the actions. -/
def onlyBending (a : Actions) : Actions :=
  { noActions with mxx := a.mxx, myy := a.myy, m11 := a.m11, m22 := a.m22 }
def onlyTorsion (a : Actions) : Actions := { noActions with mzz := a.mzz }
def onlyVx (a : Actions) : Actions := { noActions with vx := a.vx }
def onlyVy (a : Actions) : Actions := { noActions with vy := a.vy }
def onlyShear (a : Actions) : Actions := { noActions with vx := a.vx, vy := a.vy }

/-- The documented entries that result from a part of the actions. -/
def partialEntries : List StressEntry :=
  [⟨"sig_zz_n", fun a => { noActions with n := a.n }, "sig_zz"⟩,
   ⟨"sig_zz_mxx", fun a => { noActions with mxx := a.mxx }, "sig_zz"⟩,
   ⟨"sig_zz_myy", fun a => { noActions with myy := a.myy }, "sig_zz"⟩,
   ⟨"sig_zz_m11", fun a => { noActions with m11 := a.m11 }, "sig_zz"⟩,
   ⟨"sig_zz_m22", fun a => { noActions with m22 := a.m22 }, "sig_zz"⟩,
   ⟨"sig_zz_m", onlyBending, "sig_zz"⟩,
   ⟨"sig_zx_mzz", onlyTorsion, "sig_zx"⟩,
   ⟨"sig_zy_mzz", onlyTorsion, "sig_zy"⟩,
   ⟨"sig_zxy_mzz", onlyTorsion, "sig_zxy"⟩,
   ⟨"sig_zx_vx", onlyVx, "sig_zx"⟩,
   ⟨"sig_zy_vx", onlyVx, "sig_zy"⟩,
   ⟨"sig_zxy_vx", onlyVx, "sig_zxy"⟩,
   ⟨"sig_zx_vy", onlyVy, "sig_zx"⟩,
   ⟨"sig_zy_vy", onlyVy, "sig_zy"⟩,
   ⟨"sig_zxy_vy", onlyVy, "sig_zxy"⟩,
   ⟨"sig_zx_v", onlyShear, "sig_zx"⟩,
   ⟨"sig_zy_v", onlyShear, "sig_zy"⟩,
   ⟨"sig_zxy_v", onlyShear, "sig_zxy"⟩]

/-- The keys of the total stresses. -/
def totalKeys : List String := ["sig_zz", "sig_zx", "sig_zy", "sig_zxy", "sig_11", "sig_33", "sig_vm"]

end SP.Spec
