import Verif.Model.GeomPlot
import Verif.Spec.Shapes

/-!
# What an import should return
-/

namespace SP.Spec

/-- The parts of an imported geometry. -/
def partsOf : AnyGeometry → List Geometry
  | .single g => [g]
  | .compound c => c.geoms

end SP.Spec
