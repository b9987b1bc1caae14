import Verif.Model.Geometry

/-!
# Area and centroid of a geometry (geometry.py)
-/

namespace SP

/-- geometry.py 1262-1268: `Geometry.calculate_area`. -/
noncomputable def Geometry.calculateArea (g : Geometry) : ℝ := g.poly.area

/-- geometry.py 1270-1276: `Geometry.calculate_centroid`. -/
noncomputable def Geometry.calculateCentroid (g : Geometry) : Pt := g.poly.centroid

/-- geometry.py 1262-1268 for a compound, whose `geom` is the `MultiPolygon` of its parts: shapely adds the areas. -/
noncomputable def Compound.calculateArea (c : Compound) : ℝ := (c.geoms.map fun g => g.poly.area).sum

/-- geometry.py 1270-1276 for a compound: shapely divides the first moments of all parts by the area of all parts. -/
noncomputable def Compound.calculateCentroid (c : Compound) : Pt :=
  ((c.geoms.map fun g => g.poly.moment.1).sum / (c.geoms.map fun g => g.poly.area).sum,
   (c.geoms.map fun g => g.poly.moment.2).sum / (c.geoms.map fun g => g.poly.area).sum)

end SP
