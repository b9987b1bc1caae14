import Verif.Lemmas.Pieces
import Verif.Props.PlasticExample

/-!
# C44: splitting by a line
-/

namespace SP

open MeasureTheory Spec

variable {P : Type*} {ops : PolyOps P} {reg : P → Set (ℝ × ℝ)}

/-- A direction the splitting code can use: not zero, and if it is horizontal not shorter than
`1e-12`. -/
def Usable (v : ℝ × ℝ) : Prop := |v.1| > 1e-12 ∨ v.2 ≠ 0

/-- **C44** (cutting segment): the segment is not degenerate, lies on the line through the given point
with the given direction, and contains every point of this line within the bounds. -/
theorem C44_segment (p v : ℝ × ℝ) (bd : ℝ × ℝ × ℝ × ℝ) (hv : Usable v)
    (hb : bd.1 < bd.2.1 ∨ bd.2.2.1 < bd.2.2.2) :
    (createLineSegment p v bd).1 ≠ (createLineSegment p v bd).2 ∧
    (∀ q ∈ segment ℝ (createLineSegment p v bd).1 (createLineSegment p v bd).2,
      ∃ k : ℝ, q = (p.1 + k * v.1, p.2 + k * v.2)) ∧
    (∀ k : ℝ, bd.1 ≤ p.1 + k * v.1 → p.1 + k * v.1 ≤ bd.2.1 → bd.2.2.1 ≤ p.2 + k * v.2 →
      p.2 + k * v.2 ≤ bd.2.2.2 →
      (p.1 + k * v.1, p.2 + k * v.2) ∈
        segment ℝ (createLineSegment p v bd).1 (createLineSegment p v bd).2) := by
  have hb' : min (min (min bd.1 bd.2.1) bd.2.2.1) bd.2.2.2
      < max (max (max bd.1 bd.2.1) bd.2.2.1) bd.2.2.2 := by
    rcases hb with h | h
    · calc _ ≤ bd.1 := by simp
        _ < bd.2.1 := h
        _ ≤ _ := by simp
    · calc _ ≤ bd.2.2.1 := by simp
        _ < bd.2.2.2 := h
        _ ≤ _ := by simp
  obtain ⟨k1, k2, hk, e1, e2, hspan⟩ := segment_ends p v bd hv hb'
  rw [e1, e2]
  refine ⟨?_, ?_, fun k h1 h2 h3 h4 => mem_segment_line (hspan k h1 h2 h3 h4)⟩
  · intro h
    have h1 := congrArg Prod.fst h
    have h2 := congrArg Prod.snd h
    simp only [add_right_inj] at h1 h2
    have hkk : k1 - k2 ≠ 0 := sub_ne_zero.2 hk
    refine usable_ne hv ⟨?_, ?_⟩
    · exact (mul_eq_zero.1 (show (k1 - k2) * v.1 = 0 by linarith)).resolve_left hkk
    · exact (mul_eq_zero.1 (show (k1 - k2) * v.2 = 0 by linarith)).resolve_left hkk
  · rintro q ⟨a, b, ha, hb, hab, rfl⟩
    refine ⟨a * k1 + b * k2, ?_⟩
    ext
    · simp only [Prod.smul_mk, smul_eq_mul, Prod.mk_add_mk]; linear_combination p.1 * hab
    · simp only [Prod.smul_mk, smul_eq_mul, Prod.mk_add_mk]; linear_combination p.2 * hab

/-- The result of splitting a list of geometries is, geometry by geometry, a partition. -/
inductive SplitOf (reg : P → Set (ℝ × ℝ)) (p v : ℝ × ℝ) :
    List (PGeom P) → List (PGeom P) → List (PGeom P) → Prop
  | nil : SplitOf reg p v [] [] []
  | cons {g : PGeom P} {gs ts bs : List (PGeom P)} (t b : List P)
      /- pieces of `g` in the first list lie above (right of) the line, those in the second below -/
      (above : ∀ s ∈ t, ∀ q ∈ reg s, 0 ≤ height p v q)
      (below : ∀ s ∈ b, ∀ q ∈ reg s, height p v q ≤ 0)
      /- they do not overlap, and together they are the geometry -/
      (disjoint : (t ++ b).Pairwise fun s s' => volume (reg s ∩ reg s') = 0)
      (fills : reg g.poly =ᵐ[volume] {q | ∃ s ∈ t ++ b, q ∈ reg s})
      (rest : SplitOf reg p v gs ts bs) :
      SplitOf reg p v (g :: gs) ((t.map fun q => ⟨q, g.material⟩) ++ ts)
        ((b.map fun q => ⟨q, g.material⟩) ++ bs)

/-- **C44** (partition): splitting succeeds for every geometry or compound geometry and every usable
line, and returns the pieces on the two sides: each piece is in the list of the side on which it lies and
has the material of its geometry, the pieces do not overlap, and together they fill the geometry. -/
theorem C44_partition (h : ShapelyOk ops reg) (p v : ℝ × ℝ) (hv : Usable v) (geoms : List (PGeom P)) :
    ∃ top bot, splitSection ops p v geoms = .ok (top, bot) ∧ SplitOf reg p v geoms top bot := by
  induction geoms with
  | nil => exact ⟨[], [], rfl, .nil⟩
  | cons g gs ih =>
    obtain ⟨ts, bs, e, hs⟩ := ih
    obtain ⟨t, b, e', h1, h2, h3, h4⟩ := splitGeometry_ok h g p v hv
    refine ⟨_, _, ?_, .cons t b h1 h2 h3 h4 hs⟩
    simp only [splitSection, e', e]

/-- **C44** (choice of the line): with a second point the line passes through both points, a vector is
used only without a second point, and with neither the call raises `ValueError`. -/
theorem C44_line (pi : ℝ × ℝ) (pj vector : Option (ℝ × ℝ)) :
    (∀ q, pj = some q → ∃ v, lineVector pi pj vector = .ok v ∧ (pi.1 + 1 * v.1, pi.2 + 1 * v.2) = q) ∧
    (∀ v, pj = none → vector = some v → lineVector pi pj vector = .ok v) ∧
    (pj = none → vector = none → lineVector pi pj vector = .error .valueError) := by
  refine ⟨?_, ?_, ?_⟩
  · rintro q rfl
    exact ⟨_, rfl, by ext <;> simp⟩
  · rintro v rfl rfl; rfl
  · rintro rfl rfl; rfl

/-- Non-vacuity: exact operations on convex bodies, a slanted line, the two triangles of the example. -/
example : ∃ top bot, splitSection bodyOps (1, 0) (1, 2)
    (bodyPlastic exSection.elements exSection_physical.proper (0, 0)).geoms = .ok (top, bot) ∧
    SplitOf Body.set (1, 0) (1, 2) (bodyPlastic exSection.elements exSection_physical.proper (0, 0)).geoms
      top bot ∧ (bodyPlastic exSection.elements exSection_physical.proper (0, 0)).geoms.length = 2 := by
  obtain ⟨top, bot, h1, h2⟩ := C44_partition bodyOps_ok (1, 0) (1, 2) (.inr (by norm_num))
    (bodyPlastic exSection.elements exSection_physical.proper (0, 0)).geoms
  exact ⟨top, bot, h1, h2, by simp only [bodyPlastic, List.length_map, List.length_attach]; rfl⟩

example : Usable (0, 1) ∧ Usable (-3, 0) ∧ ((0 : ℝ) < 2 ∨ (0 : ℝ) < 0) := by
  refine ⟨.inr (by norm_num), .inl (by norm_num), by norm_num⟩

end SP
