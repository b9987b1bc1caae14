import Verif.Props.Facets
import Verif.Spec.Align

/-!
# Rigid motions followed by rounding
-/

namespace SP

open Spec

/-- Squared distance. -/
def sqd (p q : Pt) : ℝ := (p.1 - q.1) ^ 2 + (p.2 - q.2) ^ 2

/-- `T` preserves distances. -/
def Iso (T : Pt → Pt) : Prop := ∀ p q, sqd (T p) (T q) = sqd p q

/-- Two vertices at a squared distance greater than `k` squared units. -/
def Apart (k : ℝ) (tol : ℕ) (l : List Pt) : Prop := ∃ p ∈ l, ∃ q ∈ l, k * (1 / 10 ^ tol) ^ 2 < sqd p q

theorem spread_apart {tol : ℕ} {l : List Pt} (h : Spread tol l) : Apart 9 tol l := by
  obtain ⟨p, hp, q, hq, hd⟩ := h
  refine ⟨p, hp, q, hq, ?_⟩
  rw [sqd]
  refine lt_of_eq_of_lt ?_ hd
  ring

theorem Apart.mono {k k' : ℝ} {tol : ℕ} {l : List Pt} (h : Apart k tol l) (hk : k' ≤ k) : Apart k' tol l := by
  obtain ⟨p, hp, q, hq, hd⟩ := h
  refine ⟨p, hp, q, hq, lt_of_le_of_lt ?_ hd⟩
  gcongr

theorem apart_map {k : ℝ} {tol : ℕ} {l : List Pt} {T : Pt → Pt} (hT : Iso T) (h : Apart k tol l) :
    Apart k tol (l.map T) := by
  obtain ⟨p, hp, q, hq, hd⟩ := h
  exact ⟨T p, List.mem_map.2 ⟨p, hp, rfl⟩, T q, List.mem_map.2 ⟨q, hq, rfl⟩, by rw [hT]; exact hd⟩

theorem round_sq (tol : ℕ) (p : Pt) : sqd (roundPt tol p) p ≤ (1 / 10 ^ tol) ^ 2 / 2 := by
  have e1 := roundTo_near tol p.1
  have e2 := roundTo_near tol p.2
  rw [HalfUnit] at e1 e2
  have b1 := sq_le_sq' (by linarith [abs_nonneg (roundTo tol p.1 - p.1)]) e1
  have b2 := sq_le_sq' (by linarith [abs_nonneg (roundTo tol p.2 - p.2)]) e2
  rw [sq_abs] at b1 b2
  have : ((1 : ℝ) / 2 / 10 ^ tol) ^ 2 = (1 / 10 ^ tol) ^ 2 / 4 := by ring
  rw [this] at b1 b2
  rw [sqd, roundPt]
  simp only
  linarith

/-- A squared triangle inequality. -/
theorem sqd_tri (p p' q q' : Pt) :
    sqd p q ≤ 2 * sqd p' q' + 4 * sqd p' p + 4 * sqd q' q := by
  simp only [sqd]
  nlinarith [sq_nonneg ((p'.1 - q'.1) - ((p'.1 - p.1) - (q'.1 - q.1)) * (-1)),
    sq_nonneg ((p'.2 - q'.2) - ((p'.2 - p.2) - (q'.2 - q.2)) * (-1)),
    sq_nonneg ((p'.1 - p.1) + (q'.1 - q.1)), sq_nonneg ((p'.2 - p.2) + (q'.2 - q.2))]

theorem apart_round {tol : ℕ} {l : List Pt} (h : Apart 9 tol l) : Apart 2 tol (l.map (roundPt tol)) := by
  obtain ⟨p, hp, q, hq, hd⟩ := h
  refine ⟨_, List.mem_map.2 ⟨p, hp, rfl⟩, _, List.mem_map.2 ⟨q, hq, rfl⟩, ?_⟩
  have := sqd_tri p (roundPt tol p) q (roundPt tol q)
  have h1 := round_sq tol p
  have h2 := round_sq tol q
  have hu : (0 : ℝ) < (1 / 10 ^ tol) ^ 2 := by positivity
  linarith

theorem apart_not_zero {tol : ℕ} {l : List Pt} (h : Apart 2 tol l) :
    ¬ ∀ q ∈ l.map (roundPt tol), q = (0, 0) := by
  intro hall
  obtain ⟨p, hp, q, hq, hd⟩ := h
  have h1 := hall _ (List.mem_map.2 ⟨p, hp, rfl⟩)
  have h2 := hall _ (List.mem_map.2 ⟨q, hq, rfl⟩)
  have r1 := round_sq tol p
  have r2 := round_sq tol q
  rw [h1] at r1
  rw [h2] at r2
  simp only [sqd] at hd r1 r2
  nlinarith [sq_nonneg (p.1 + q.1), sq_nonneg (p.2 + q.2)]

theorem roundPoly_of_apart {tol : ℕ} {p : Poly} (h : Apart 2 tol p.exterior) :
    roundPoly tol p = p.map (roundPt tol) := by
  rw [roundPoly, if_neg (apart_not_zero h)]

theorem Poly.map_exterior (f : Pt → Pt) (p : Poly) : (p.map f).exterior = p.exterior.map f := rfl

/-- The polygon of a moved geometry. -/
theorem move_poly (ops : GeomOps) {p : Poly} {tol : ℕ} (h : Apart 2 tol p.exterior) {T : Pt → Pt} (hT : Iso T)
    (m : Material) (cp : Option Pt) :
    (mkGeometry ops (p.map T) m cp tol).poly = p.map fun q => roundPt tol (T q) := by
  have : roundPoly tol (p.map T) = (p.map T).map (roundPt tol) := roundPoly_of_apart (apart_map hT h)
  rw [Poly.map_map] at this
  exact this

theorem coord_sq {x y s : ℝ} (hs : 0 ≤ s) (h : x ^ 2 + y ^ 2 ≤ s ^ 2 / 2) : |x| ≤ 3 / 4 * s ∧ |y| ≤ 3 / 4 * s := by
  constructor <;> apply abs_le_of_sq_le_sq _ (by positivity) <;> nlinarith [sq_nonneg x, sq_nonneg y, sq_nonneg s]

/-- Rounding after each of two motions, or once after both: the vertices differ by at most one unit. -/
theorem round_twice (tol : ℕ) {T T' : Pt → Pt} (hT' : Iso T') (q : Pt) :
    OneUnit tol (roundPt tol (T' (roundPt tol (T q)))) (roundPt tol (T' (T q))) := by
  have hu : (0 : ℝ) < 1 / 10 ^ tol := by positivity
  have h1 : sqd (T' (roundPt tol (T q))) (T' (T q)) ≤ (1 / 10 ^ tol) ^ 2 / 2 := by
    rw [hT']; exact round_sq tol (T q)
  obtain ⟨a1, a2⟩ := coord_sq hu.le h1
  have key : ∀ x y : ℝ, |x - y| ≤ 3 / 4 * (1 / 10 ^ tol) → |roundTo tol x - roundTo tol y| ≤ 1 / 10 ^ tol := by
    intro x y hxy
    apply onGrid_oneUnit (roundTo_onGrid _ _) (roundTo_onGrid _ _)
    have r1 := roundTo_near tol x
    have r2 := roundTo_near tol y
    have e : (1 : ℝ) / 2 / 10 ^ tol = 1 / 2 * (1 / 10 ^ tol) := by ring
    have e2 : (2 : ℝ) / 10 ^ tol = 2 * (1 / 10 ^ tol) := by ring
    rw [HalfUnit, e, abs_le] at r1 r2
    rw [abs_le] at hxy
    rw [e2, abs_lt]
    constructor <;> linarith [r1.1, r1.2, r2.1, r2.2, hxy.1, hxy.2]
  exact ⟨key _ _ a1, key _ _ a2⟩

theorem sameRings_map {tol : ℕ} {p : Poly} {f g : Pt → Pt}
    (h : ∀ r ∈ p.rings, ∀ q ∈ r, OneUnit tol (f q) (g q)) : SameRings tol (p.map f) (p.map g) := by
  have e : List.Forall₂ (List.Forall₂ (OneUnit tol)) (p.map f).rings (p.map g).rings := by
    rw [Poly.map_rings, Poly.map_rings, List.forall₂_map_left_iff, List.forall₂_map_right_iff, List.forall₂_same]
    intro r hr
    rw [List.forall₂_map_left_iff, List.forall₂_map_right_iff, List.forall₂_same]
    exact h r hr
  exact e

theorem cyclesFrom_map (f : Pt → Pt) : ∀ (rs : List (List Pt)) (s : ℕ),
    cyclesFrom s (rs.map (List.map f)) = cyclesFrom s rs
  | [], _ => rfl
  | r :: rs, s => by simp [cyclesFrom, cyclesFrom_map f rs]

theorem facets_of_map {ops : GeomOps} {p : Poly} {f : Pt → Pt} {g : Geometry} (hb : Built ops g)
    (h : g.poly = p.map f) : g.facets = cyclesFrom 0 p.rings := by
  rw [hb.facets, h, Poly.map_rings, cyclesFrom_map]

/-- Two motions after each other compared with one motion. -/
theorem same_comp (ops : GeomOps) {g : Geometry} (hs : Spread g.tol g.poly.exterior)
    {T T' U : Pt → Pt} (hT : Iso T) (hT' : Iso T') (hU : Iso U) (hc : ∀ p, T' (T p) = U p)
    (m : Material) (c c' : Option Pt) (hcp : c = c') :
    Same (mkGeometry ops ((mkGeometry ops (g.poly.map T) m (g.assigned.map T) g.tol).poly.map T') m c g.tol)
      (mkGeometry ops (g.poly.map U) m c' g.tol) := by
  have ha := spread_apart hs
  have h1 := move_poly ops (ha.mono (by norm_num)) hT m (g.assigned.map T)
  have hap : Apart 2 g.tol (mkGeometry ops (g.poly.map T) m (g.assigned.map T) g.tol).poly.exterior := by
    rw [h1]
    have := apart_round (apart_map hT ha)
    rw [List.map_map] at this
    exact this
  have h2 := move_poly ops hap hT' m c
  have h2' : (mkGeometry ops ((mkGeometry ops (g.poly.map T) m (g.assigned.map T) g.tol).poly.map T') m c g.tol).poly
      = g.poly.map fun q => roundPt g.tol (T' (roundPt g.tol (T q))) := by
    rw [h2, h1, Poly.map_map]
    rfl
  have h3 := move_poly ops (ha.mono (by norm_num)) hU m c'
  refine ⟨rfl, ?_, ?_, hcp, rfl⟩
  · rw [h2', h3]
    apply sameRings_map
    intro r _ q _
    have := round_twice g.tol (T := T) hT' q
    rw [hc] at this
    exact this
  · rw [facets_of_map (mk_built ..) h3, facets_of_map (mk_built ..) h2']

/-- A motion back and forth. -/
theorem same_inv (ops : GeomOps) {g : Geometry} (hb : Built ops g) (hs : Spread g.tol g.poly.exterior)
    {T T' : Pt → Pt} (hT : Iso T) (hT' : Iso T') (hc : ∀ p, T' (T p) = p) (c : Option Pt) (hcp : c = g.assigned) :
    Same (mkGeometry ops ((mkGeometry ops (g.poly.map T) g.material (g.assigned.map T) g.tol).poly.map T')
      g.material c g.tol) g := by
  have := same_comp ops hs hT hT' (U := id) (fun _ _ => rfl) hc g.material c g.assigned hcp
  have e : g.poly.map id = g.poly := by simp [Poly.map]
  rw [e, ← hb.eq] at this
  exact this

/-! ### The motions -/

theorem iso_translate (a b : ℝ) : Iso (translate a b) := by
  intro p q; simp only [sqd, translate]; ring

theorem iso_rotate (c : Pt) (a : ℝ) : Iso (rotateAbout c a) := by
  intro p q
  simp only [sqd, rotateAbout]
  have := Real.sin_sq_add_cos_sq a
  linear_combination ((p.1 - q.1) ^ 2 + (p.2 - q.2) ^ 2) * this

theorem iso_mirror (c : Pt) (ax : MirrorAxis) : Iso (scaleAbout c (mirrorFactors ax).1 (mirrorFactors ax).2) := by
  intro p q
  cases ax <;> simp only [sqd, scaleAbout, mirrorFactors] <;> ring

theorem rotate_rotate (c : Pt) (a b : ℝ) (p : Pt) : rotateAbout c b (rotateAbout c a p) = rotateAbout c (a + b) p := by
  simp only [rotateAbout, Real.cos_add, Real.sin_add, Prod.mk.injEq]
  constructor <;> ring

theorem mirror_mirror (c : Pt) (ax : MirrorAxis) (p : Pt) :
    scaleAbout c (mirrorFactors ax).1 (mirrorFactors ax).2 (scaleAbout c (mirrorFactors ax).1 (mirrorFactors ax).2 p) = p := by
  cases ax <;> ext <;> simp [scaleAbout, mirrorFactors]

end SP
