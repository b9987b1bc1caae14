import Verif.Lemmas.BodyFlip
import Verif.Props.ShearFine

/-!
# C103: symmetric bodies, on meshes that need not be symmetric

Results of a symmetric body on a mesh without the symmetry are symmetric in the limit: the image of a mesh is a mesh of the same body, with
the opposite result, and all fine meshes agree.  What the geometric analysis reports is symmetric on every mesh.
-/

namespace SP

open Spec MeasureTheory Set Topology Filter

section
variable {ex ey : ℤˣ} {tx ty : ℝ} {Ω : Set (ℝ × ℝ)} {mat : ℝ × ℝ → Material} {s : Section} {r : GeomResults} {w : WarpResults s.numNodes}

/-- The image of a mesh, with its results. -/
theorem signed_solved (h : SolvedMesh Ω mat s r w) (hΩ : signs ex ey tx ty '' Ω = Ω) (hmat : ∀ p ∈ Ω, mat (signs ex ey tx ty p) = mat p)
    (hl : ConnectedMesh s.elements) : ∃ (s' : Section) (r' : GeomResults) (w' : WarpResults s'.numNodes), SolvedMesh Ω mat s' r' w' ∧
      (isComposite s'.materials ↔ isComposite s.materials) ∧ (∀ δ κ, FineMesh s.elements δ κ → FineMesh s'.elements δ κ) ∧
      (w'.sc.xSe = rs ex * w.sc.xSe ∧ w'.sc.ySe = rs ey * w.sc.ySe) ∧ (w'.sc.xSt = rs ex * w.sc.xSt ∧ w'.sc.ySt = rs ey * w.sc.ySt) ∧
      w'.areas.sxy = rs ex * rs ey * w.areas.sxy ∧ (w'.beta.xPlus = rs ey * w.beta.xPlus ∧ w'.beta.xMinus = rs ey * w.beta.xMinus ∧
        w'.beta.yPlus = rs ex * w.beta.yPlus ∧ w'.beta.yMinus = rs ex * w.beta.yMinus) := by
  obtain ⟨s', τ, hm, hg', hc', hM, hf, hb⟩ := signed_exists ex ey tx ty h.good h.physical h.conforming
  have hp' := SameMesh.physical hm h.physical
  have hM' : isComposite s'.materials ↔ isComposite s.materials := by rw [hM]
  obtain ⟨r', hr'⟩ := geometricAnalysis_ok s' (by
    obtain ⟨t, ht⟩ := List.exists_mem_of_ne_nil _ hp'.nonempty
    exact (t.nodeIds 0).pos)
  obtain ⟨w', hw', k1, k2, k3⟩ := exact_warping _ r' hg' hp' hr' (linked_shift (same_linked hm hl) _ _)
  obtain ⟨sv, st, hw⟩ := h.warp
  obtain ⟨-, -, e1, e2, -, e4, e3, -⟩ := C71_reflection hm hM' h.good h.physical hl h.geom hr' hw hw' ⟨h.omega, h.psi, h.phi⟩ ⟨k1, k2, k3⟩
  exact ⟨s', r', w', ⟨hg', hp', hc', hb Ω mat hΩ hmat h.mesh, hr', ⟨_, _, hw'⟩, k1, k2, k3⟩, hM', hf, e1, e2, e4.2.2.1, e3⟩

/-- A result that changes its sign with the mesh tends to zero. -/
theorem limit_zero {s₀ : Section} {κ : ℝ} (hfine : ∀ δ > 0, ∃ (s : Section) (r : GeomResults) (w : WarpResults s.numNodes),
      SolvedMesh Ω mat s r w ∧ (isComposite s.materials ↔ isComposite s₀.materials) ∧ FineMesh s.elements δ κ ∧ ConnectedMesh s.elements)
    {f : ∀ s : Section, GeomResults → WarpResults s.numNodes → ℝ} {l : ℝ} (hl : MeshLimit Ω mat (isComposite s₀.materials) f l)
    (hf : ∀ (s : Section) (r : GeomResults) (w : WarpResults s.numNodes), SolvedMesh Ω mat s r w → ConnectedMesh s.elements →
      ∃ (s' : Section) (r' : GeomResults) (w' : WarpResults s'.numNodes), SolvedMesh Ω mat s' r' w' ∧
        (isComposite s'.materials ↔ isComposite s.materials) ∧ (∀ δ κ, FineMesh s.elements δ κ → FineMesh s'.elements δ κ) ∧
        f s' r' w' = -f s r w) : MeshLimit Ω mat (isComposite s₀.materials) f 0 := by
  have : l = 0 := by
    by_contra hne
    obtain ⟨δ, hδ, k⟩ := hl κ (|l| / 2) (half_pos (abs_pos.2 hne))
    obtain ⟨s, r, w, h1, h2, h3, h4⟩ := hfine δ hδ
    obtain ⟨s', r', w', h5, h6', h6'', h6⟩ := hf s r w h1 h4
    have a1 := k s r w h1 h2 h3
    have a2 := k _ r' w' h5 (h6'.trans h2) (h6'' _ _ h3)
    rw [h6] at a2
    have := abs_add_le (f s r w - l) (-f s r w - l)
    rw [show f s r w - l + (-f s r w - l) = -(2 * l) by ring, abs_neg, abs_mul, abs_two] at this
    have := abs_pos.2 hne
    linarith
  rwa [this] at hl

/-- The centroid and the product of inertia of a symmetric body, on any mesh. -/
theorem symmetric_geom (h : SolvedMesh Ω mat s r w) (hΩ : signs ex ey tx ty '' Ω = Ω) (hmat : ∀ p ∈ Ω, mat (signs ex ey tx ty p) = mat p) :
    r.cx = rs ex * r.cx + tx ∧ r.cy = rs ey * r.cy + ty ∧ r.cent.ixyC = rs ex * rs ey * r.cent.ixyC := by
  obtain ⟨s', τ, hm, hg', hc', hM, hf, hb⟩ := signed_exists ex ey tx ty h.good h.physical h.conforming
  have hp' := SameMesh.physical hm h.physical
  obtain ⟨r', hr'⟩ := geometricAnalysis_ok s' (by
    obtain ⟨t, ht⟩ := List.exists_mem_of_ne_nil _ hp'.nonempty
    exact (t.nodeIds 0).pos)
  obtain ⟨⟨e1, e2⟩, -, -, e3, -⟩ := relabel_setup hm (by rw [hM]) h.physical h.geom hr'
  obtain ⟨-, -, g1, g2, -, -, g3, -⟩ := meshOf_geom h.good hg' h.mesh (hb Ω mat hΩ hmat h.mesh) h.geom hr'
  exact ⟨g1.trans e1, g2.trans e2, g3.trans e3⟩

/-- **C103** (centroid).  A body that is symmetric about a line `x = tx / 2`, a line `y = ty / 2` or a point, with its materials: on every mesh,
symmetric or not, the centroid lies on the line or is the point, and the product of inertia of a body with a line of symmetry is zero. -/
theorem C103_centroid (h : SolvedMesh Ω mat s r w) (hΩ : signs ex ey tx ty '' Ω = Ω) (hmat : ∀ p ∈ Ω, mat (signs ex ey tx ty p) = mat p) :
    (ex = -1 → r.cx = tx / 2) ∧ (ey = -1 → r.cy = ty / 2) ∧ (ex * ey = -1 → r.cent.ixyC = 0) := by
  obtain ⟨h1, h2, h3⟩ := symmetric_geom h hΩ hmat
  refine ⟨?_, ?_, fun hee => ?_⟩
  · rintro rfl
    simp only [rs, Units.val_neg, Units.val_one, Int.cast_neg, Int.cast_one] at h1
    linarith
  · rintro rfl
    simp only [rs, Units.val_neg, Units.val_one, Int.cast_neg, Int.cast_one] at h2
    linarith
  · have e : rs ex * rs ey = -1 := by
      have := congrArg rs hee
      simpa [rs] using this
    rw [e] at h3
    linarith

/-- **C103** (shear centre and monosymmetry constants).  A connected body that is symmetric about a line `x = tx / 2`, a line `y = ty / 2` or a
point, with its materials: on fine meshes of bounded aspect, symmetric or not, the elastic and Trefftz's shear centres come as close as one
likes to the line or to the point, and the monosymmetry constants that measure the asymmetry about that line to zero. -/
theorem C103_shear_centre {s₀ : Section} {r₀ : GeomResults} {w₀ : WarpResults s₀.numNodes} (h₀ : SolvedMesh Ω mat s₀ r₀ w₀)
    (hcon : IsPreconnected (interior (region s₀.elements))) {κ : ℝ}
    (hfine : ∀ δ > 0, ∃ (s : Section) (r : GeomResults) (w : WarpResults s.numNodes), SolvedMesh Ω mat s r w ∧
      (isComposite s.materials ↔ isComposite s₀.materials) ∧ FineMesh s.elements δ κ ∧ ConnectedMesh s.elements)
    (hΩ : signs ex ey tx ty '' Ω = Ω) (hmat : ∀ p ∈ Ω, mat (signs ex ey tx ty p) = mat p) :
    (ex = -1 → ∀ f ∈ [fun (s : Section) (r : GeomResults) (w : WarpResults s.numNodes) => r.cx + w.sc.xSe, fun _ r w => r.cx + w.sc.xSt],
        MeshLimit Ω mat (isComposite s₀.materials) f (tx / 2)) ∧
    (ex = -1 → ∀ f ∈ [fun (s : Section) (_ : GeomResults) (w : WarpResults s.numNodes) => w.beta.yPlus, fun _ _ w => w.beta.yMinus],
        MeshLimit Ω mat (isComposite s₀.materials) f 0) ∧
    (ey = -1 → ∀ f ∈ [fun (s : Section) (r : GeomResults) (w : WarpResults s.numNodes) => r.cy + w.sc.ySe, fun _ r w => r.cy + w.sc.ySt],
        MeshLimit Ω mat (isComposite s₀.materials) f (ty / 2)) ∧
    (ey = -1 → ∀ f ∈ [fun (s : Section) (_ : GeomResults) (w : WarpResults s.numNodes) => w.beta.xPlus, fun _ _ w => w.beta.xMinus],
        MeshLimit Ω mat (isComposite s₀.materials) f 0) := by
  have add : ∀ {g : ∀ s : Section, GeomResults → WarpResults s.numNodes → ℝ} {c : GeomResults → ℝ} {a : ℝ},
      (∀ (s : Section) (r : GeomResults) (w : WarpResults s.numNodes), SolvedMesh Ω mat s r w → c r = a) →
      MeshLimit Ω mat (isComposite s₀.materials) g 0 → MeshLimit Ω mat (isComposite s₀.materials) (fun s r w => c r + g s r w) a := by
    intro g c a hc hg κ ε hε
    obtain ⟨δ, hδ, k⟩ := hg κ ε hε
    refine ⟨δ, hδ, fun s r w h1 h2 h3 => ?_⟩
    have := k s r w h1 h2 h3
    rw [sub_zero] at this
    change |c r + g s r w - a| ≤ ε
    rwa [hc s r w h1, add_sub_cancel_left]
  have im := fun (s : Section) (r : GeomResults) (w : WarpResults s.numNodes) (h : SolvedMesh Ω mat s r w) hl =>
    signed_solved h hΩ hmat hl
  refine ⟨?_, ?_, ?_, ?_⟩
  · rintro rfl f hf
    have hc : ∀ (s : Section) (r : GeomResults) (w : WarpResults s.numNodes), SolvedMesh Ω mat s r w → r.cx = tx / 2 :=
      fun s r w h => (C103_centroid h hΩ hmat).1 rfl
    simp only [List.mem_cons, List.not_mem_nil, or_false] at hf
    rcases hf with rfl | rfl
    · obtain ⟨l, hl⟩ := C94_shear_centre h₀ hcon 0
      refine add hc (limit_zero hfine hl fun s r w h1 h2 => ?_)
      obtain ⟨s', r', w', k, k', k'', e1, -⟩ := im s r w h1 h2
      exact ⟨s', r', w', k, k', k'', by simpa [rs, centreValues] using e1.1⟩
    · obtain ⟨l, hl⟩ := C94_shear_centre h₀ hcon 4
      refine add hc (limit_zero hfine hl fun s r w h1 h2 => ?_)
      obtain ⟨s', r', w', k, k', k'', -, e1, -⟩ := im s r w h1 h2
      exact ⟨s', r', w', k, k', k'', by simpa [rs, centreValues] using e1.1⟩
  · rintro rfl f hf
    simp only [List.mem_cons, List.not_mem_nil, or_false] at hf
    rcases hf with rfl | rfl
    · obtain ⟨l, hl⟩ := C94_monosymmetry h₀ hcon 2
      refine limit_zero hfine hl fun s r w h1 h2 => ?_
      obtain ⟨s', r', w', k, k', k'', -, -, -, -, -, e1, -⟩ := im s r w h1 h2
      exact ⟨s', r', w', k, k', k'', by simpa [rs, betaValues] using e1⟩
    · obtain ⟨l, hl⟩ := C94_monosymmetry h₀ hcon 3
      refine limit_zero hfine hl fun s r w h1 h2 => ?_
      obtain ⟨s', r', w', k, k', k'', -, -, -, -, -, -, e1⟩ := im s r w h1 h2
      exact ⟨s', r', w', k, k', k'', by simpa [rs, betaValues] using e1⟩
  · rintro rfl f hf
    have hc : ∀ (s : Section) (r : GeomResults) (w : WarpResults s.numNodes), SolvedMesh Ω mat s r w → r.cy = ty / 2 :=
      fun s r w h => (C103_centroid h hΩ hmat).2.1 rfl
    simp only [List.mem_cons, List.not_mem_nil, or_false] at hf
    rcases hf with rfl | rfl
    · obtain ⟨l, hl⟩ := C94_shear_centre h₀ hcon 1
      refine add hc (limit_zero hfine hl fun s r w h1 h2 => ?_)
      obtain ⟨s', r', w', k, k', k'', e1, -⟩ := im s r w h1 h2
      exact ⟨s', r', w', k, k', k'', by simpa [rs, centreValues] using e1.2⟩
    · obtain ⟨l, hl⟩ := C94_shear_centre h₀ hcon 5
      refine add hc (limit_zero hfine hl fun s r w h1 h2 => ?_)
      obtain ⟨s', r', w', k, k', k'', -, e1, -⟩ := im s r w h1 h2
      exact ⟨s', r', w', k, k', k'', by simpa [rs, centreValues] using e1.2⟩
  · rintro rfl f hf
    simp only [List.mem_cons, List.not_mem_nil, or_false] at hf
    rcases hf with rfl | rfl
    · obtain ⟨l, hl⟩ := C94_monosymmetry h₀ hcon 0
      refine limit_zero hfine hl fun s r w h1 h2 => ?_
      obtain ⟨s', r', w', k, k', k'', -, -, -, e1, -⟩ := im s r w h1 h2
      exact ⟨s', r', w', k, k', k'', by simpa [rs, betaValues] using e1⟩
    · obtain ⟨l, hl⟩ := C94_monosymmetry h₀ hcon 1
      refine limit_zero hfine hl fun s r w h1 h2 => ?_
      obtain ⟨s', r', w', k, k', k'', -, -, -, -, e1, -⟩ := im s r w h1 h2
      exact ⟨s', r', w', k, k', k'', by simpa [rs, betaValues] using e1⟩

/-- **C103** (mixed shear area).  A connected body that is symmetric about a line parallel to an axis, with its materials: on fine meshes of
bounded aspect, symmetric or not, the reciprocal of the mixed shear area comes as close as one likes to zero. -/
theorem C103_mixed {s₀ : Section} {r₀ : GeomResults} {w₀ : WarpResults s₀.numNodes} (h₀ : SolvedMesh Ω mat s₀ r₀ w₀)
    (hcon : IsPreconnected (interior (region s₀.elements))) (hnu : isComposite s₀.materials → r₀.nuEff ≠ -1) {κ : ℝ}
    (hfine : ∀ δ > 0, ∃ (s : Section) (r : GeomResults) (w : WarpResults s.numNodes), SolvedMesh Ω mat s r w ∧
      (isComposite s.materials ↔ isComposite s₀.materials) ∧ FineMesh s.elements δ κ ∧ ConnectedMesh s.elements)
    (hΩ : signs ex ey tx ty '' Ω = Ω) (hmat : ∀ p ∈ Ω, mat (signs ex ey tx ty p) = mat p) (hee : ex * ey = -1) :
    MeshLimit Ω mat (isComposite s₀.materials) (fun _ _ w => 1 / w.areas.sxy) 0 := by
  obtain ⟨l, hl⟩ := C94_shear_mixed h₀ hcon hnu
  refine limit_zero hfine hl fun s r w h1 h2 => ?_
  obtain ⟨s', r', w', k, k', k'', -, -, e1, -⟩ := signed_solved h1 hΩ hmat h2
  refine ⟨s', r', w', k, k', k'', ?_⟩
  have e : rs ex * rs ey = -1 := by
    have := congrArg rs hee
    simpa [rs] using this
  rw [e1, e, neg_one_mul, one_div_neg_eq_neg_one_div]

end

theorem unlinked_shift {n : ℕ} {els : List (Tri6 n)} {cx cy : ℝ} (h : ConnectedMesh (els.map fun t => t.shiftBy cx cy)) : ConnectedMesh els := by
  intro i j
  refine Relation.ReflTransGen.mono (fun i j hij => ?_) _ _ (h i j)
  obtain ⟨t, ht, k, l, hk, hl⟩ := hij
  obtain ⟨u, hu, rfl⟩ := List.mem_map.1 ht
  exact ⟨u, hu, k, l, hk, hl⟩

/-- A rectangle is its own image under half a turn about its middle. -/
theorem rect_turned (b d : ℝ) : signs (-1) (-1) b d '' (Ioo (0 : ℝ) (0 + b) ×ˢ Ioo (0 : ℝ) (0 + d)) = Ioo (0 : ℝ) (0 + b) ×ˢ Ioo (0 : ℝ) (0 + d) := by
  ext p
  simp only [mem_image, mem_prod, mem_Ioo, signs, affine, Units.val_neg, Units.val_one, Int.cast_neg, Int.cast_one]
  constructor
  · rintro ⟨q, ⟨⟨h1, h2⟩, h3, h4⟩, rfl⟩
    exact ⟨⟨by simp only; linarith, by simp only; linarith⟩, by simp only; linarith, by simp only; linarith⟩
  · rintro ⟨⟨h1, h2⟩, h3, h4⟩
    exact ⟨(b - p.1, d - p.2), ⟨⟨by simp only; linarith, by simp only; linarith⟩, by simp only; linarith, by simp only; linarith⟩,
      Prod.ext (by simp) (by simp)⟩

/-- **C103** for the rectangle `b × d` of a material with any Poisson's ratio: on all fine meshes, symmetric or not, the shear centre is as close
as one likes to the middle, and the monosymmetry constants to zero. -/
theorem C103_rectangle {b d : ℝ} (hb : 0 < b) (hd : 0 < d) (m : MatObj) (hE : 0 < m.val.elasticModulus) (hm : m.val ≠ defaultMaterial) :
    (∀ f ∈ [fun (s : Section) (r : GeomResults) (w : WarpResults s.numNodes) => r.cx + w.sc.xSe, fun _ r w => r.cx + w.sc.xSt],
      MeshLimit (Ioo (0 : ℝ) (0 + b) ×ˢ Ioo (0 : ℝ) (0 + d)) (fun _ => m.val) True f (b / 2)) ∧
    (∀ f ∈ [fun (s : Section) (r : GeomResults) (w : WarpResults s.numNodes) => r.cy + w.sc.ySe, fun _ r w => r.cy + w.sc.ySt],
      MeshLimit (Ioo (0 : ℝ) (0 + b) ×ˢ Ioo (0 : ℝ) (0 + d)) (fun _ => m.val) True f (d / 2)) ∧
    (∀ f ∈ [fun (s : Section) (_ : GeomResults) (w : WarpResults s.numNodes) => w.beta.xPlus, fun _ _ w => w.beta.xMinus,
        fun _ _ w => w.beta.yPlus, fun _ _ w => w.beta.yMinus],
      MeshLimit (Ioo (0 : ℝ) (0 + b) ×ˢ Ioo (0 : ℝ) (0 + d)) (fun _ => m.val) True f 0) := by
  obtain ⟨s₀, r₀, w₀, -, -, -, h₀, hc₀, -⟩ := grid_solved_of hb hd m hE hm one_pos
  have key := C103_shear_centre (ex := -1) (ey := -1) (tx := b) (ty := d) (κ := (b ^ 2 + d ^ 2) / (b * d)) h₀
    (connected_body h₀ (isOpen_Ioo.prod isOpen_Ioo) (isPreconnected_Ioo.prod isPreconnected_Ioo)) (fun δ hδ => by
      obtain ⟨K, hK0, hK⟩ := grid_small (b := b) (d := d) hδ
      obtain ⟨s, r, w, h1, -, -, h4, h5, -, h7⟩ := grid_solved_of hb hd m hE hm hK0
      refine ⟨s, r, w, h4, iff_of_true h5 hc₀, fineMesh_mono h7 (hK K le_rfl), ?_⟩
      have e := Except.ok.inj (h1.symm.trans (grid_init hK0 m))
      rw [e]
      exact unlinked_shift (cx := 0) (cy := 0) (grid_linked hK0 m 0 0)) (rect_turned b d) (fun _ _ => rfl)
  have hcT : isComposite s₀.materials = True := eq_true hc₀
  rw [hcT] at key
  obtain ⟨k1, k2, k3, k4⟩ := key
  refine ⟨k1 rfl, k3 rfl, fun f hf => ?_⟩
  simp only [List.mem_cons, List.not_mem_nil, or_false] at hf
  rcases hf with rfl | rfl | rfl | rfl
  · exact k4 rfl _ (by simp)
  · exact k4 rfl _ (by simp)
  · exact k2 rfl _ (by simp)
  · exact k2 rfl _ (by simp)

theorem rect_mirrored (b d : ℝ) : signs (-1) 1 b 0 '' (Ioo (0 : ℝ) (0 + b) ×ˢ Ioo (0 : ℝ) (0 + d)) = Ioo (0 : ℝ) (0 + b) ×ˢ Ioo (0 : ℝ) (0 + d) := by
  ext p
  simp only [mem_image, mem_prod, mem_Ioo, signs, affine, Units.val_neg, Units.val_one, Int.cast_neg, Int.cast_one]
  constructor
  · rintro ⟨q, ⟨⟨h1, h2⟩, h3, h4⟩, rfl⟩
    exact ⟨⟨by simp only; linarith, by simp only; linarith⟩, by simp only; linarith, by simp only; linarith⟩
  · rintro ⟨⟨h1, h2⟩, h3, h4⟩
    exact ⟨(b - p.1, p.2), ⟨⟨by simp only; linarith, by simp only; linarith⟩, by simp only; linarith, by simp only; linarith⟩,
      Prod.ext (by simp) (by simp)⟩

/-- **C103** for the rectangle `b × d` of a material with any Poisson's ratio above `-1`: on all fine meshes, symmetric or not, the reciprocal
of the mixed shear area is as close as one likes to zero. -/
theorem C103_rectangle_mixed {b d : ℝ} (hb : 0 < b) (hd : 0 < d) (m : MatObj) (hE : 0 < m.val.elasticModulus)
    (hν : -1 < m.val.poissonsRatio) (hm : m.val ≠ defaultMaterial) :
    MeshLimit (Ioo (0 : ℝ) (0 + b) ×ˢ Ioo (0 : ℝ) (0 + d)) (fun _ => m.val) True (fun _ _ w => 1 / w.areas.sxy) 0 := by
  obtain ⟨s₀, r₀, w₀, -, -, -, h₀, hc₀, hu₀, -⟩ := grid_solved_of hb hd m hE hm one_pos
  have nu : r₀.nuEff = m.val.poissonsRatio := by
    obtain ⟨-, -, -, -, -, -, -, h8⟩ := C13_effective h₀.geom h₀.physical fun t ht => by rw [hu₀ t ht]; exact hν
    exact (h8 m.val.elasticModulus m.val.poissonsRatio fun t ht => by rw [hu₀ t ht]; exact ⟨rfl, rfl⟩).2
  have key := C103_mixed (ex := -1) (ey := 1) (tx := b) (ty := 0) (κ := (b ^ 2 + d ^ 2) / (b * d)) h₀
    (connected_body h₀ (isOpen_Ioo.prod isOpen_Ioo) (isPreconnected_Ioo.prod isPreconnected_Ioo)) (fun _ => by rw [nu]; exact hν.ne')
    (fun δ hδ => by
      obtain ⟨K, hK0, hK⟩ := grid_small (b := b) (d := d) hδ
      obtain ⟨s, r, w, h1, -, -, h4, h5, -, h7⟩ := grid_solved_of hb hd m hE hm hK0
      refine ⟨s, r, w, h4, iff_of_true h5 hc₀, fineMesh_mono h7 (hK K le_rfl), ?_⟩
      have e := Except.ok.inj (h1.symm.trans (grid_init hK0 m))
      rw [e]
      exact unlinked_shift (cx := 0) (cy := 0) (grid_linked hK0 m 0 0)) (rect_mirrored b d) (fun _ _ => rfl) (by decide)
  rwa [show isComposite s₀.materials = True from eq_true hc₀] at key

/-- A rectangle of steel. -/
example := C103_rectangle (b := 200) (d := 100) (by norm_num) (by norm_num) ⟨1, ⟨"steel", 200000, 3 / 10, 500, 1, "grey"⟩⟩ (by norm_num)
  fun h => by have := congrArg Material.elasticModulus h; norm_num [defaultMaterial] at this

example := C103_rectangle_mixed (b := 200) (d := 100) (by norm_num) (by norm_num) ⟨1, ⟨"steel", 200000, 3 / 10, 500, 1, "grey"⟩⟩ (by norm_num)
  (by norm_num) fun h => by have := congrArg Material.elasticModulus h; norm_num [defaultMaterial] at this

end SP
