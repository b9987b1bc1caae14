import Verif.Model.Offset

/-!
# Model of `calculate_perimeter`: geometry.py 1254-1260, 2459-2473
-/

namespace SP

/-- `ring.length`.  (geometry.py 1260, 2471.) -/
noncomputable def ringLength (r : List Pt) : ℝ :=
  ((ringEdges r).map fun e => √((e.2.1 - e.1.1) ^ 2 + (e.2.2 - e.1.2) ^ 2)).sum

/-- geometry.py 1254-1260: `Geometry.calculate_perimeter`. -/
noncomputable def Geometry.perimeter (g : Geometry) : ℝ := ringLength g.poly.exterior

/-- geometry.py 2459-2473: `CompoundGeometry.calculate_perimeter`. -/
noncomputable def Compound.perimeter (bf : BufferOps) (c : Compound) : ℝ :=
  match bf.unaryUnion (c.geoms.map (·.poly)) with
  | .polygon p => ringLength p.exterior
  | _ => -1

end SP
