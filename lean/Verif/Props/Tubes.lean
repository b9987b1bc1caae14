import Verif.Props.RecoveryExact

/-!
# C76 continued: TUBE and TUBE2
-/

namespace SP

open Spec

/-- The overlay operation cuts the inner ring out of the outer one. -/
def Pierces (ops : GeomOps) (ov : OverlayOps) (L M : List Pt) (m : Material) : Prop :=
  ov.diff [(libGeom ops L m).poly] [(libGeom ops M m).poly] =
    .polygon ⟨(libGeom ops L m).poly.exterior, [(libGeom ops M m).poly.exterior]⟩

/-- A ring cut out of another one. -/
theorem pierced (ops : GeomOps) (ov : OverlayOps) {L M : List Pt} (m : Material) (s1 : Spread 12 L) (s2 : Spread 12 M)
    (s3 : Spread 12 (L.map (roundPt 12))) (hcut : Pierces ops ov L M m) :
    ∃ g, (libGeom ops L m).sub ops ov (.single (libGeom ops M m)) = .ok (.single g) ∧ Drawn g L ∧ DrawnHole g M := by
  have p1 : ∀ {l : List Pt}, Spread 12 l → (libGeom ops l m).poly.exterior = l.map (roundPt 12) := by
    intro l hl
    have : (libGeom ops l m).poly = (⟨l, []⟩ : Poly).map (roundPt 12) := roundPoly_of_spread (p := ⟨l, []⟩) hl
    rw [this]; rfl
  have twice : ∀ l : List Pt, (l.map (roundPt 12)).map (roundPt 12) = l.map (roundPt 12) := by
    intro l
    rw [List.map_map]
    exact List.map_congr_left fun p _ => roundPt_of_onGrid (roundPt_onGrid 12 p)
  have near : ∀ l : List Pt, List.Forall₂ (fun p q => HalfUnit 12 p.1 q.1 ∧ HalfUnit 12 p.2 q.2) (l.map (roundPt 12)) l := by
    intro l
    rw [List.forall₂_map_left_iff, List.forall₂_same]
    exact fun p _ => ⟨roundTo_near 12 p.1, roundTo_near 12 p.2⟩
  rw [Pierces, p1 s1, p1 s2] at hcut
  have hr3 : ∀ cp, (mkGeometry ops ⟨L.map (roundPt 12), [M.map (roundPt 12)]⟩ m cp 12).poly
      = ⟨L.map (roundPt 12), [M.map (roundPt 12)]⟩ := by
    intro cp
    have : (mkGeometry ops ⟨L.map (roundPt 12), [M.map (roundPt 12)]⟩ m cp 12).poly
        = (⟨L.map (roundPt 12), [M.map (roundPt 12)]⟩ : Poly).map (roundPt 12) :=
      roundPoly_of_spread (p := ⟨L.map (roundPt 12), [M.map (roundPt 12)]⟩) s3
    rw [this]
    simp only [Poly.map, List.map_cons, List.map_nil, twice]
  have key : ∃ cp, (libGeom ops L m).sub ops ov (.single (libGeom ops M m)) =
      .ok (.single (mkGeometry ops ⟨L.map (roundPt 12), [M.map (roundPt 12)]⟩ m cp 12)) := by
    refine ⟨none, ?_⟩
    rw [Geometry.sub, show Shape.polys (.single (libGeom ops M m)) = [(libGeom ops M m).poly] from rfl, hcut]
    rfl
  obtain ⟨cp, key⟩ := key
  refine ⟨_, key, ?_, ?_⟩
  · rw [Drawn, hr3]; exact near L
  · rw [DrawnHole, hr3]; exact ⟨_, rfl, near M⟩

/-- An overlay that cuts the second polygon out of the first. -/
def pierceOps : OverlayOps where
  union a _ := .multi a
  symDiff a _ := .multi a
  diff a b := match a, b with
    | [p], [q] => .polygon ⟨p.exterior, [q.exterior]⟩
    | _, _ => .other
  inter a _ := .multi a
  contains _ _ := true

end SP
