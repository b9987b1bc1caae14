import Verif.Model.GetterApi

/-!
# Specification of the getters: the documented table

For every getter: for which kind of section it is defined, which stored quantities it reports, and
whether they are divided by the reference modulus.  Only the names of getters and of stored quantities
are taken from the model.
-/

namespace SP.Spec

/-- Kind of section a getter is defined for. -/
inductive GetterKind where
  | geometricOnly
  | compositeOnly
  | either

/-- Geometric-only getters, composite-only getters (rigidities, moments, effective properties, mass), and
getters for both. -/
def getterKind : Getter → GetterKind
  | .getQ | .getIg | .getIc | .getZ | .getIp | .getZp | .getJ | .getGamma => .geometricOnly
  | .getAs | .getAsP | .getS | .getSp => .geometricOnly
  | .getMass | .getEa | .getEq | .getEig | .getEic | .getEz | .getMy | .getEip => .compositeOnly
  | .getEzp | .getMyP | .getNuEff | .getEEff | .getGEff | .getEj | .getEgamma | .getEas => .compositeOnly
  | .getEasP | .getMp | .getMpP => .compositeOnly
  | .getArea | .getPerimeter | .getC | .getRc | .getPhi | .getRp | .getSc | .getScP => .either
  | .getScT | .getBeta | .getBetaP | .getPc | .getPcP | .getSf | .getSfP => .either

/-- The section (given by the materials of its parts) is of the right kind: composite means that some
part has a material other than the default material. -/
def kindOk (ms : List MatObj) : GetterKind → Prop
  | .geometricOnly => ¬ ∃ m ∈ ms, m.val ≠ defaultMaterial
  | .compositeOnly => ∃ m ∈ ms, m.val ≠ defaultMaterial
  | .either => True

/-- The stored quantities that must have been computed. -/
def getterNeeds : Getter → List Field
  | .getArea => [.area]
  | .getPerimeter => [.perimeter]
  | .getMass => [.mass]
  | .getEa => [.ea]
  | .getQ => [.qx, .qy]
  | .getEq => [.qx, .qy]
  | .getIg => [.ixxG, .iyyG, .ixyG]
  | .getEig => [.ixxG, .iyyG, .ixyG]
  | .getC => [.cx, .cy]
  | .getIc => [.ixxC, .iyyC, .ixyC]
  | .getEic => [.ixxC, .iyyC, .ixyC]
  | .getZ => [.zxxPlus, .zxxMinus, .zyyPlus, .zyyMinus]
  | .getEz => [.zxxPlus, .zxxMinus, .zyyPlus, .zyyMinus]
  | .getMy => [.myXX, .myYY]
  | .getRc => [.rxC, .ryC]
  | .getIp => [.i11C, .i22C]
  | .getEip => [.i11C, .i22C]
  | .getPhi => [.phi]
  | .getZp => [.z11Plus, .z11Minus, .z22Plus, .z22Minus]
  | .getEzp => [.z11Plus, .z11Minus, .z22Plus, .z22Minus]
  | .getMyP => [.my11, .my22]
  | .getRp => [.r11C, .r22C]
  | .getNuEff => [.nuEff]
  | .getEEff => [.eEff]
  | .getGEff => [.gEff]
  | .getJ => [.j]
  | .getEj => [.j]
  | .getSc => [.xSe, .ySe, .cx, .cy]
  | .getScP => [.x11Se, .y22Se]
  | .getScT => [.xSt, .ySt, .cx, .cy]
  | .getGamma => [.gamma]
  | .getEgamma => [.gamma]
  | .getAs => [.aSx, .aSy]
  | .getEas => [.aSx, .aSy]
  | .getAsP => [.aS11, .aS22]
  | .getEasP => [.aS11, .aS22]
  | .getBeta => [.betaXPlus, .betaXMinus, .betaYPlus, .betaYMinus]
  | .getBetaP => [.beta11Plus, .beta11Minus, .beta22Plus, .beta22Minus]
  | .getPc => [.xPc, .yPc, .cx, .cy]
  | .getPcP => [.phi, .x11Pc, .y22Pc, .cx, .cy]
  | .getS => [.sxx, .syy]
  | .getMp => [.sxx, .syy]
  | .getSp => [.s11, .s22]
  | .getMpP => [.s11, .s22]
  | .getSf => [.sfXXPlus, .sfXXMinus, .sfYYPlus, .sfYYMinus]
  | .getSfP => [.sf11Plus, .sf11Minus, .sf22Plus, .sf22Minus]

/-- Getters with an argument `e_ref`: rigidities, which are divided by the reference modulus. -/
def getterScaled : Getter → Bool
  | .getEa | .getEq | .getEig | .getEic | .getEz | .getEip | .getEzp | .getEj => true
  | .getEgamma | .getEas | .getEasP => true
  | _ => false

/-- Positions of shear centre and plastic centroid are stored relative to the elastic centroid and
reported in global coordinates (`getPcP` also rotates back from the principal axes by `phi` degrees);
all other getters report the stored quantities, rigidities divided by `e_ref`. -/
noncomputable def getterValue (g : Getter) (v : Field → ℝ) (e : ℝ) : List ℝ :=
  match g with
  | .getSc => [v .cx + v .xSe, v .cy + v .ySe]
  | .getScT => [v .cx + v .xSt, v .cy + v .ySt]
  | .getPc => [v .cx + v .xPc, v .cy + v .yPc]
  | .getPcP =>
    let a := v .phi * Real.pi / 180
    [v .cx + (v .x11Pc * Real.cos a - v .y22Pc * Real.sin a),
     v .cy + (v .x11Pc * Real.sin a + v .y22Pc * Real.cos a)]
  | g => (getterNeeds g).map fun f => if getterScaled g then v f / e else v f

end SP.Spec
