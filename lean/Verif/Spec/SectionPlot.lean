import Verif.Spec.History

/-!
# Specification of the plots of a section
-/

namespace SP.Spec

/-- The labels of the marked centres, with the getters that report them. -/
def centreGetters : List (String × Getter) := [("Elastic centroid", .getC), ("Shear centre", .getSc),
  ("Global plastic centroid", .getPc), ("Principal plastic centroid", .getPcP)]

/-- The call is a plastic analysis. -/
def PlasticCall : Env.Call → Prop
  | .plastic => True
  | _ => False

/-- The elements are drawn in the colours of their materials: `drawn` lists indices and colours. -/
def TrueColours (s : Section) (drawn : List (ℕ × String)) : Prop :=
  ∀ i c, (i, c) ∈ drawn → ∃ t, s.elements[i]? = some t ∧ t.material.color = c

end SP.Spec
