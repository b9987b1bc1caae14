import Verif.Props.Rigid

/-!
# The mesh request (C46, meshing side)
-/

namespace SP

open Spec

/-- The regions that should be requested: the `i`-th control point with attribute `i` and its size. -/
def wantedRegions (cps : List Pt) (size : ℕ → ℝ) : List (ℝ × ℝ × ℕ × ℝ) :=
  cps.mapIdx fun i cp => (cp.1, cp.2, i, size i)

theorem regionList_ok {sizes : List ℝ} {size : ℕ → ℝ} : ∀ (cps : List Pt) (i : ℕ),
    (∀ j, j < cps.length → sizes[i + j]? = some (size (i + j))) →
    regionList sizes i cps = .ok (cps.mapIdx fun j cp => (cp.1, cp.2, i + j, size (i + j)))
  | [], _, _ => by simp [regionList]
  | cp :: cps, i, h => by
    have h0 := h 0 (by simp)
    rw [Nat.add_zero] at h0
    have ih := regionList_ok (size := size) cps (i + 1) fun j hj => by
      have := h (j + 1) (by simp; omega)
      rwa [show i + 1 + j = i + (j + 1) by omega]
    rw [regionList, h0]
    simp only [ih]
    rw [List.mapIdx_cons]
    congr 3
    funext j cp
    rw [show i + 1 + j = i + (j + 1) by omega]

theorem regionList_short {sizes : List ℝ} : ∀ (cps : List Pt) (i : ℕ), i ≤ sizes.length →
    sizes.length < i + cps.length → regionList sizes i cps = .error .indexError
  | [], i, h1, h2 => by simp at h2; omega
  | cp :: cps, i, h1, h2 => by
    rw [regionList]
    rcases Nat.eq_or_lt_of_le h1 with h | h
    · rw [List.getElem?_eq_none (by omega)]
    · rw [List.getElem?_eq_getElem h]
      simp only
      rw [regionList_short cps (i + 1) (by omega) (by simp at h2; omega)]

/-- A request to the mesher as it should be. -/
def Requests (r : Except PyErr TriangleInput) (points : List Pt) (facets : List (ℕ × ℕ)) (holes cps : List Pt)
    (size : ℕ → ℝ) (minAngle : ℝ) (coarse : Bool) : Prop :=
  ∃ t, r = .ok t ∧ t.vertices = points ∧ t.segments = facets ∧ t.holes.getD [] = holes ∧
    t.regions = wantedRegions cps size ∧ t.minAngle = if coarse then none else some minAngle

theorem meshInput_ok {points : List Pt} {facets : List (ℕ × ℕ)} {holes cps : List Pt} {sizes : MeshSizes}
    {minAngle : ℝ} {coarse : Bool} {l : List ℝ} {size : ℕ → ℝ}
    (hl : (match sizes with | .num x => [x] | .list l => l) = l)
    (h : ∀ j, j < cps.length → l[j]? = some (size j)) :
    Requests (meshInput points facets holes cps sizes minAngle coarse) points facets holes cps size minAngle coarse := by
  have := regionList_ok (sizes := l) (size := size) cps 0 fun j hj => by rw [Nat.zero_add]; exact h j hj
  refine ⟨⟨points, facets, if holes = [] then none else some holes,
    cps.mapIdx fun j cp => (cp.1, cp.2, 0 + j, size (0 + j)), if coarse then none else some minAngle⟩, ?_, rfl, rfl, ?_, ?_, rfl⟩
  · cases sizes <;> (simp only at hl; subst hl; unfold meshInput; simp only [this])
  · by_cases hh : holes = [] <;> simp [hh]
  · simp [wantedRegions]

/-- **C46, meshing side.** `create_mesh` of a geometry hands to the mesher its points, facets and holes, one
region at its control point with attribute 0 and the requested size, and the angle; a list of another
length than one raises `ValueError`. -/
theorem C46_mesh_geometry (ops : GeomOps) {g : Geometry} (hb : Built ops g) (minAngle : ℝ) (coarse : Bool) :
    (∀ x, Requests (g.meshRequest (.num x) minAngle coarse) g.points g.facets g.holes g.controlPoints (fun _ => x)
      minAngle coarse) ∧
    (∀ x, Requests (g.meshRequest (.list [x]) minAngle coarse) g.points g.facets g.holes g.controlPoints (fun _ => x)
      minAngle coarse) ∧
    (∀ l : List ℝ, l.length ≠ 1 → g.meshRequest (.list l) minAngle coarse = .error .valueError) := by
  have hcp : g.controlPoints.length ≤ 1 := by
    obtain ⟨p, m, cp, tol, rfl⟩ := hb
    cases cp
    · simp only [mkGeometry]
      split <;> simp
    · simp [mkGeometry]
  refine ⟨fun x => ?_, fun x => ?_, fun l hl => ?_⟩
  · rw [Geometry.meshRequest]
    exact meshInput_ok (l := [x]) rfl fun j hj => by
      have : j = 0 := by omega
      simp [this]
  · rw [Geometry.meshRequest]
    exact meshInput_ok (l := [x]) rfl fun j hj => by
      have : j = 0 := by omega
      simp [this]
  · match l, hl with
    | [], _ => rfl
    | [x], h => simp at h
    | _ :: _ :: _, _ => rfl

/-- **C46, meshing side.** `create_mesh` of a compound without empty parts requests one region for each of its parts, at the
control point of the part, with the number of the part as attribute, and with the requested size: the one
size for all parts if a number or a list of length one is given, and else the size of the same index.
Fewer sizes than parts (and more than one) raise `IndexError`; sizes beyond the number of parts are
ignored. -/
theorem C46_mesh_compound (ops : GeomOps) {c : Compound} (hc : CBuilt ops c)
    (hne : ∀ g ∈ c.geoms, g.poly.exterior ≠ []) (minAngle : ℝ) (coarse : Bool) :
    c.controlPoints.length = c.geoms.length ∧
    (∀ x, Requests (c.meshRequest (.num x) minAngle coarse) c.points c.facets c.holes c.controlPoints (fun _ => x)
      minAngle coarse) ∧
    (∀ x, Requests (c.meshRequest (.list [x]) minAngle coarse) c.points c.facets c.holes c.controlPoints (fun _ => x)
      minAngle coarse) ∧
    (∀ l : List ℝ, l.length ≠ 1 → c.geoms.length ≤ l.length →
      Requests (c.meshRequest (.list l) minAngle coarse) c.points c.facets c.holes c.controlPoints (fun i => l.getD i 0)
        minAngle coarse) ∧
    (∀ l : List ℝ, l.length ≠ 1 → l.length < c.geoms.length →
      c.meshRequest (.list l) minAngle coarse = .error .indexError) := by
  have hlen : c.controlPoints.length = c.geoms.length := by
    obtain ⟨c0, h1, _, _, _, _, _, _, _, h2, _⟩ := C39_compile ops hc.1
    rw [hc.2] at h1
    obtain rfl := Except.ok.inj h1
    exact h2 hne
  have hrep : ∀ (x : ℝ) (n j : ℕ), j < n → ((List.replicate n [x]).flatten)[j]? = some x := by
    intro x n j hj
    rw [List.flatten_replicate_singleton, List.getElem?_replicate]
    simp [hj]
  refine ⟨hlen, fun x => ?_, fun x => ?_, fun l h1 h2 => ?_, fun l h1 h2 => ?_⟩
  · rw [Compound.meshRequest]
    exact meshInput_ok (l := (List.replicate c.controlPoints.length [x]).flatten) rfl fun j hj => hrep x _ j hj
  · rw [Compound.meshRequest]
    exact meshInput_ok (l := (List.replicate c.controlPoints.length [x]).flatten) rfl fun j hj => hrep x _ j hj
  · rw [Compound.meshRequest]
    simp only [h1, if_false]
    refine meshInput_ok (l := l) rfl fun j hj => ?_
    have : j < l.length := by omega
    simp [this]
  · rw [Compound.meshRequest]
    simp only [h1, if_false]
    rw [meshInput, regionList_short _ _ (by omega) (by omega)]

/-- The request for two rectangles with two sizes. -/
example : ∃ c : Compound, CBuilt exOps c ∧ c.geoms.length = 2 ∧
    ∃ t, c.meshRequest (.list [5, 7]) 30 false = .ok t ∧ t.regions.map (·.2.2) = [(0, 5), (1, 7)] := by
  obtain ⟨c, _, h2, h3, h4⟩ := exPair defaultMaterial
  have hl : c.geoms.length = 2 := by rw [h2]; rfl
  obtain ⟨a, _, _, b, _⟩ := C46_mesh_compound exOps h3 (by
    intro g hg
    obtain ⟨p, hp, _⟩ := h4 g hg
    exact List.ne_nil_of_mem hp) 30 false
  obtain ⟨t, e1, _, _, _, e2, _⟩ := b [5, 7] (by simp) (by rw [hl]; simp)
  refine ⟨c, h3, hl, t, e1, ?_⟩
  rw [e2]
  rw [hl] at a
  obtain ⟨p, q, h⟩ := List.length_eq_two.1 a
  rw [h]
  simp [wantedRegions]

end SP
