import Verif.Model.Stress

/-!
# Model of `StressPost.get_stress`: stress_post.py 556-691
-/

namespace SP

/-- One of the dictionaries returned by `get_stress`: the entry `"material"`, and the other entries in
order of insertion.  (stress_post.py 556-691.) -/
structure StressDict (n : ℕ) where
  material : String
  entries : List (String × (Fin n → ℝ))

/-- `d[key]` for the keys other than `"material"`.  (stress_post.py 556-691.) -/
def StressDict.get? {n : ℕ} (d : StressDict n) (key : String) : Option (Fin n → ℝ) :=
  d.entries.lookup key

/-- stress_post.py 660-688: the dictionary of one material group. -/
noncomputable def stressDict {n : ℕ} (g : GroupStress n) : StressDict n where
  material := g.material.val.name
  entries := [
    ("sig_zz_n", fun i => (g.comp i).zzN),
    ("sig_zz_mxx", fun i => (g.comp i).zzMxx),
    ("sig_zz_myy", fun i => (g.comp i).zzMyy),
    ("sig_zz_m11", fun i => (g.comp i).zzM11),
    ("sig_zz_m22", fun i => (g.comp i).zzM22),
    ("sig_zz_m", fun i => (g.comb i).zzM),
    ("sig_zx_mzz", fun i => (g.comp i).zxMzz),
    ("sig_zy_mzz", fun i => (g.comp i).zyMzz),
    ("sig_zxy_mzz", fun i => (g.comb i).zxyMzz),
    ("sig_zx_vx", fun i => (g.comp i).zxVx),
    ("sig_zy_vx", fun i => (g.comp i).zyVx),
    ("sig_zxy_vx", fun i => (g.comb i).zxyVx),
    ("sig_zx_vy", fun i => (g.comp i).zxVy),
    ("sig_zy_vy", fun i => (g.comp i).zyVy),
    ("sig_zxy_vy", fun i => (g.comb i).zxyVy),
    ("sig_zx_v", fun i => (g.comb i).zxV),
    ("sig_zy_v", fun i => (g.comb i).zyV),
    ("sig_zxy_v", fun i => (g.comb i).zxyV),
    ("sig_zz", fun i => (g.comb i).zz),
    ("sig_zx", fun i => (g.comb i).zx),
    ("sig_zy", fun i => (g.comb i).zy),
    ("sig_zxy", fun i => (g.comb i).zxy),
    ("sig_11", fun i => (g.comb i).s11),
    ("sig_33", fun i => (g.comb i).s33),
    ("sig_vm", fun i => (g.comb i).vm) ]

/-- stress_post.py 656-691: `get_stress` on the result of a stress analysis. -/
noncomputable def getStress {n : ℕ} (l : List (GroupStress n)) : List (StressDict n) := l.map stressDict

end SP
