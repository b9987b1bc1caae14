import Verif.Lemmas.Store

/-!
# What the analyses leave in the store
-/

namespace SP

open Classical

/-- The values a geometric analysis stores. -/
def geomValues (perimeter : ℝ) (r : GeomResults) : List (Field × ℝ) :=
  [(.area, r.sums.area), (.perimeter, perimeter), (.mass, r.sums.mass), (.ea, r.sums.ea),
   (.ga, r.sums.ga), (.nuEff, r.nuEff), (.eEff, r.eEff), (.gEff, r.gEff), (.qx, r.sums.qx),
   (.qy, r.sums.qy), (.ixxG, r.sums.ixxG), (.iyyG, r.sums.iyyG), (.ixyG, r.sums.ixyG),
   (.cx, r.cx), (.cy, r.cy), (.ixxC, r.cent.ixxC), (.iyyC, r.cent.iyyC), (.ixyC, r.cent.ixyC),
   (.zxxPlus, r.cent.zxxPlus), (.zxxMinus, r.cent.zxxMinus), (.zyyPlus, r.cent.zyyPlus),
   (.zyyMinus, r.cent.zyyMinus), (.rxC, r.cent.rx), (.ryC, r.cent.ry), (.i11C, r.cent.i11),
   (.i22C, r.cent.i22), (.phi, r.cent.phi), (.z11Plus, r.cent.z11Plus),
   (.z11Minus, r.cent.z11Minus), (.z22Plus, r.cent.z22Plus), (.z22Minus, r.cent.z22Minus),
   (.r11C, r.cent.r11), (.r22C, r.cent.r22), (.myXX, r.myXX), (.myYY, r.myYY), (.my11, r.my11),
   (.my22, r.my22)]

theorem Store.ext' {n : ℕ} {s t : Store n} (h1 : s.val = t.val) (h2 : s.omega = t.omega)
    (h3 : s.psi = t.psi) (h4 : s.phiS = t.phiS) : s = t := by
  cases s; cases t; simp_all

theorem set_val_apply {n : ℕ} (s : Store n) (l) (f : Field) : (s.set l).val f = assign l s.val f := rfl

theorem assign_cons_apply (g : Field) (x : ℝ) (l v) (f : Field) :
    assign ((g, x) :: l) v f = assign l (fun h => if h = g then some x else v h) f := by
  rw [assign_cons]; congr 1; funext h; simp [Function.update_apply]

theorem set_set {n : ℕ} (s : Store n) (l l' : List (Field × ℝ)) : (s.set l).set l' = s.set (l ++ l') := by
  unfold Store.set assign
  simp [List.foldl_append]

variable {P : Type} (env : Env P)

set_option maxHeartbeats 1000000 in
/-- A geometric analysis that succeeds overwrites all geometric values and nothing else. -/
theorem exec_geometric {r : GeomResults} (hr : env.sec.geometricAnalysis = .ok r)
    (s : Store env.sec.numNodes) :
    exec env.geometric s = (.ok (), s.set (geomValues env.perimeter r)) := by
  unfold Section.geometricAnalysis at hr
  dsimp only at hr
  cases hn : List.ofFn env.sec.meshNodes with
  | nil => rw [hn] at hr; simp [centroidalProps] at hr
  | cons p ps =>
    rw [hn] at hr
    simp only [centroidalProps, Except.ok.injEq] at hr
    unfold Env.geometric
    simp only [exec_write_bind, set_set, List.cons_append, List.nil_append]
    unfold Env.elasticCentroid
    rw [exec_bind, exec_get_bind]
    simp only [set_val, assign_cons, assign_nil, ne_eq, reduceCtorEq, not_false_eq_true,
      Function.update_self, Function.update_of_ne, exec_write, set_set]
    unfold Env.centroidalProperties
    rw [hn, exec_bind, exec_get_bind]
    simp only [set_val, assign_cons, assign_nil, ne_eq, reduceCtorEq, not_false_eq_true,
      Function.update_self, Function.update_of_ne, exec_write_bind, exec_write, set_set,
      List.cons_append, List.nil_append]
    unfold Env.yieldMoments
    rw [exec_write_bind, exec_get_bind]
    simp only [set_val, assign_cons, assign_nil, ne_eq, reduceCtorEq, not_false_eq_true,
      Function.update_self, Function.update_of_ne, exec_write, set_set,
      List.cons_append, List.nil_append]
    subst hr
    congr 1
    refine Store.ext' ?_ rfl rfl rfl
    funext f
    cases f <;>
    simp [set_val, assign_cons, assign_nil, geomValues, GeomSums.nuEff, GeomSums.eEff, GeomSums.gEff,
      GeomSums.cx, GeomSums.cy, GeomSums.ixxC, GeomSums.iyyC, GeomSums.ixyC]

end SP
