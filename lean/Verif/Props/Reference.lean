import Verif.Props.History
import Verif.Props.Order

/-!
# C14 (reference modulus)
-/

namespace SP

open Classical Spec

/-- The modulus-weighted sums depend on the coordinates and elastic moduli only. -/
theorem geomSums_modulus {n n' : ℕ} {els : List (Tri6 n)} {els' : List (Tri6 n')}
    (h : (els.map fun t => (t.coords, t.material.elasticModulus))
      = els'.map fun t => (t.coords, t.material.elasticModulus)) :
    (geomSums els).ea = (geomSums els').ea ∧ (geomSums els).qx = (geomSums els').qx ∧
    (geomSums els).qy = (geomSums els').qy ∧ (geomSums els).ixxG = (geomSums els').ixxG ∧
    (geomSums els).iyyG = (geomSums els').iyyG ∧ (geomSums els).ixyG = (geomSums els').ixyG := by
  have fac : ∀ (f : ∀ {k : ℕ}, Tri6 k → ℝ)
      (_ : ∀ {k k' : ℕ} (t : Tri6 k) (t' : Tri6 k'), t.coords = t'.coords →
        t.material.elasticModulus = t'.material.elasticModulus → f t = f t'),
      accum els (fun t => f t) = accum els' (fun t => f t) := by
    intro f hf
    rw [accum_eq_sum, accum_eq_sum]
    have e1 : els.map (fun t => f t) = (els.map fun t => (t.coords, t.material.elasticModulus)).map
        (fun q => f (⟨0, q.1, fun _ => 0, { defaultMaterial with elasticModulus := q.2 }⟩ : Tri6 1)) := by
      rw [List.map_map]; exact List.map_congr_left fun t _ => hf _ _ rfl rfl
    have e2 : els'.map (fun t => f t) = (els'.map fun t => (t.coords, t.material.elasticModulus)).map
        (fun q => f (⟨0, q.1, fun _ => 0, { defaultMaterial with elasticModulus := q.2 }⟩ : Tri6 1)) := by
      rw [List.map_map]; exact List.map_congr_left fun t _ => hf _ _ rfl rfl
    rw [e1, e2, h]
  refine ⟨fac (fun t => t.geometricProperties.area * t.geometricProperties.e) ?_,
    fac (fun t => t.geometricProperties.qx * t.geometricProperties.e) ?_,
    fac (fun t => t.geometricProperties.qy * t.geometricProperties.e) ?_,
    fac (fun t => t.geometricProperties.ixx * t.geometricProperties.e) ?_,
    fac (fun t => t.geometricProperties.iyy * t.geometricProperties.e) ?_,
    fac (fun t => t.geometricProperties.ixy * t.geometricProperties.e) ?_⟩ <;>
  · intro k k' t t' hc he
    simp only [Tri6.geometricProperties, hc, he]

/-- A rigidity getter and the getter of the corresponding geometric property. -/
def Spec.rigidityPairs : List (Getter × Getter) :=
  [(.getEa, .getArea), (.getEq, .getQ), (.getEig, .getIg), (.getEic, .getIc), (.getEip, .getIp)]

/-- **C14** (reference modulus).  `sec` has one elastic modulus `E` throughout, `plain` has the same
elements made of the default material.  With `e_ref = E` (as a number or as a material) the rigidity
getters of `sec` return exactly the geometric properties of `plain`; with any other `e_ref` they
return those times `E / e_ref`. -/
theorem C14_reference {P P' : Type} (sec : Env P) (plain : Env P') {E : ℝ} (hE : 0 < E)
    (h0 : 0 < sec.sec.numNodes) (h0' : 0 < plain.sec.numNodes)
    (hc : sec.sec.elements.map Tri6.coords = plain.sec.elements.map Tri6.coords)
    (hmod : ∀ t ∈ sec.sec.elements, t.material.elasticModulus = E)
    (hdef : ∀ t ∈ plain.sec.elements, t.material = defaultMaterial)
    (hk : isComposite sec.sec.materials) (hk' : ¬ isComposite plain.sec.materials)
    (p : Getter × Getter) (hp : p ∈ rigidityPairs) (e e' : ERef) :
    ∃ v, callGetter p.2 plain.sec.materials (plain.after [.geometric]) e' = .ok v ∧
      callGetter p.1 sec.sec.materials (sec.after [.geometric]) e
        = .ok (v.map fun x => E * x / e.value) := by
  obtain ⟨r, hr⟩ := geometricAnalysis_ok sec.sec h0
  obtain ⟨r', hr'⟩ := geometricAnalysis_ok plain.sec h0'
  obtain ⟨q, hq⟩ := geometricAnalysis_ok ⟨plain.sec.numNodes, plain.sec.meshNodes, [],
    plain.sec.elements.map (Tri6.scaleE E), []⟩ h0'
  have sc := C14_modulus_scaling hE hr' hq (by rw [List.map_map]; rfl)
  obtain ⟨q1, q2, -⟩ := geom_ok hq
  obtain ⟨r1, r2, -⟩ := geom_ok hr
  obtain ⟨r1', -⟩ := geom_ok hr'
  have hm := geomSums_modulus (els := sec.sec.elements) (els' := plain.sec.elements.map (Tri6.scaleE E))
    (by
      have e1 : (sec.sec.elements.map fun t => (t.coords, t.material.elasticModulus))
          = (sec.sec.elements.map Tri6.coords).map fun c => (c, E) := by
        rw [List.map_map]
        exact List.map_congr_left fun t ht => by simp [hmod t ht]
      rw [e1, hc, List.map_map, List.map_map]
      exact List.map_congr_left fun t ht => by
        simp [Tri6.scaleE, Material.scaleE, hdef t ht, defaultMaterial])
  rw [← r1, ← q1] at hm
  obtain ⟨m1, m2, m3, m4, m5, m6⟩ := hm
  have hcC : r.sums.ixxC = q.sums.ixxC ∧ r.sums.iyyC = q.sums.iyyC ∧ r.sums.ixyC = q.sums.ixyC := by
    simp only [GeomSums.ixxC, GeomSums.iyyC, GeomSums.ixyC, m1, m2, m3, m4, m5, m6, and_self]
  obtain ⟨a1, a2, a3, a4, a5, -⟩ := cent_ok r2
  obtain ⟨b1, b2, b3, b4, b5, -⟩ := cent_ok q2
  rw [hcC.1, hcC.2.1, hcC.2.2] at a4 a5
  rw [hcC.1] at a1
  rw [hcC.2.1] at a2
  rw [hcC.2.2] at a3
  obtain ⟨-, -, s3, -, s5, s6, s7, s8, s9, -, -, -, -, -, s15, s16, s17, s18, s19, -⟩ := sc
  have hA : r'.sums.ea = r'.sums.area := by
    rw [r1']
    simp only [geomSums, accum_eq_sum]
    refine congrArg List.sum (List.map_congr_left fun t ht => ?_)
    have : t.geometricProperties.e = 1 := by simp [Tri6.geometricProperties, hdef t ht, defaultMaterial]
    rw [this, mul_one]
  have ea1 : (sec.after [.geometric]) = (Store.empty _).set (geomValues sec.perimeter r) := by
    change (sec.step .geometric (Store.empty _)).2 = _
    rw [step_geometric, exec_geometric sec hr]
  have ea2 : (plain.after [.geometric]) = (Store.empty _).set (geomValues plain.perimeter r') := by
    change (plain.step .geometric (Store.empty _)).2 = _
    rw [step_geometric, exec_geometric plain hr']
  rw [ea1, ea2]
  have g1 := holdsGeom_set sec.perimeter r (Store.empty sec.sec.numNodes)
  have g2 := holdsGeom_set plain.perimeter r' (Store.empty plain.sec.numNodes)
  generalize (Store.empty sec.sec.numNodes).set (geomValues sec.perimeter r) = S at g1
  generalize (Store.empty plain.sec.numNodes).set (geomValues plain.perimeter r') = S' at g2
  simp only [rigidityPairs, List.mem_cons, List.not_mem_nil, or_false] at hp
  rcases hp with rfl | rfl | rfl | rfl | rfl
  · have x1 := g1 (.ea, r.sums.ea) (by simp [geomValues])
    have y1 := g2 (.area, r'.sums.area) (by simp [geomValues])
    refine ⟨[r'.sums.area], by simp [callGetter, getArea, y1, Except.map, list1], ?_⟩
    dsimp only at x1
    simp [callGetter, getEa, hk, x1, Except.map, list1, m1, s3, hA]
  · have x1 := g1 (.qx, r.sums.qx) (by simp [geomValues])
    have x2 := g1 (.qy, r.sums.qy) (by simp [geomValues])
    have y1 := g2 (.qx, r'.sums.qx) (by simp [geomValues])
    have y2 := g2 (.qy, r'.sums.qy) (by simp [geomValues])
    dsimp only at x1 x2 y1 y2
    refine ⟨[r'.sums.qx, r'.sums.qy], by simp [callGetter, getQ, hk', y1, y2, Except.map, list2], ?_⟩
    simp [callGetter, getEq, hk, x1, x2, Except.map, list2, m2, m3, s5, s6]
  · have x1 := g1 (.ixxG, r.sums.ixxG) (by simp [geomValues])
    have x2 := g1 (.iyyG, r.sums.iyyG) (by simp [geomValues])
    have x3 := g1 (.ixyG, r.sums.ixyG) (by simp [geomValues])
    have y1 := g2 (.ixxG, r'.sums.ixxG) (by simp [geomValues])
    have y2 := g2 (.iyyG, r'.sums.iyyG) (by simp [geomValues])
    have y3 := g2 (.ixyG, r'.sums.ixyG) (by simp [geomValues])
    dsimp only at x1 x2 x3 y1 y2 y3
    refine ⟨[r'.sums.ixxG, r'.sums.iyyG, r'.sums.ixyG],
      by simp [callGetter, getIg, hk', y1, y2, y3, Except.map, list3], ?_⟩
    simp [callGetter, getEig, hk, x1, x2, x3, Except.map, list3, m4, m5, m6, s7, s8, s9]
  · have x1 := g1 (.ixxC, r.cent.ixxC) (by simp [geomValues])
    have x2 := g1 (.iyyC, r.cent.iyyC) (by simp [geomValues])
    have x3 := g1 (.ixyC, r.cent.ixyC) (by simp [geomValues])
    have y1 := g2 (.ixxC, r'.cent.ixxC) (by simp [geomValues])
    have y2 := g2 (.iyyC, r'.cent.iyyC) (by simp [geomValues])
    have y3 := g2 (.ixyC, r'.cent.ixyC) (by simp [geomValues])
    dsimp only at x1 x2 x3 y1 y2 y3
    refine ⟨[r'.cent.ixxC, r'.cent.iyyC, r'.cent.ixyC],
      by simp [callGetter, getIc, hk', y1, y2, y3, Except.map, list3], ?_⟩
    simp [callGetter, getEic, hk, x1, x2, x3, Except.map, list3, a1, a2, a3, ← b1, ← b2, ← b3, s15, s16,
      s17]
  · have x1 := g1 (.i11C, r.cent.i11) (by simp [geomValues])
    have x2 := g1 (.i22C, r.cent.i22) (by simp [geomValues])
    have y1 := g2 (.i11C, r'.cent.i11) (by simp [geomValues])
    have y2 := g2 (.i22C, r'.cent.i22) (by simp [geomValues])
    dsimp only at x1 x2 y1 y2
    refine ⟨[r'.cent.i11, r'.cent.i22], by simp [callGetter, getIp, hk', y1, y2, Except.map, list2], ?_⟩
    simp [callGetter, getEip, hk, x1, x2, Except.map, list2, a4, a5, ← b4, ← b5, s18, s19]

/-- A material different from the default material only in its modulus. -/
noncomputable def exStiff : Material := { defaultMaterial with elasticModulus := 200 }

/-- Non-vacuity: the plain rectangle and the same elements made of another material. -/
example : ∃ s : Section, 0 < s.numNodes ∧ s.elements.map Tri6.coords = exPlain.elements.map Tri6.coords ∧
    (∀ t ∈ s.elements, t.material.elasticModulus = 200) ∧
    (∀ t ∈ exPlain.elements, t.material = defaultMaterial) ∧ isComposite s.materials ∧
    ¬ isComposite exPlain.materials := by
  refine ⟨⟨exPlain.numNodes, exPlain.meshNodes, [⟨0, exStiff⟩],
    exPlain.elements.map fun t => { t with material := exStiff }, []⟩, by simp [exPlain], ?_, ?_, ?_, ?_,
    exPlain_not_composite⟩
  · rw [List.map_map]; rfl
  · intro t ht
    obtain ⟨u, -, rfl⟩ := List.mem_map.1 ht
    rfl
  · intro (t : Tri6 9) ht
    have ht : t ∈ [exP0, exP1] := ht
    rcases List.mem_cons.1 ht with rfl | ht
    · rfl
    · rw [List.mem_singleton.1 ht]; rfl
  · intro h
    have := h.2 ⟨0, exStiff⟩ (by simp)
    have : exStiff.elasticModulus = defaultMaterial.elasticModulus := congrArg _ this
    norm_num [exStiff, defaultMaterial] at this

end SP
