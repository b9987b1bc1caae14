import Verif.Model.Store

/-!
# Specification of the result tables

Which quantity stands in which row, under which name, and with which value.
-/

namespace SP.Spec

open Classical

/-- The rows of the tables from top to bottom; quantities of one group are shown together. -/
def tableGroups : List (List Field) :=
  [[.area], [.perimeter], [.mass], [.ea], [.qx, .qy], [.ixxG, .iyyG, .ixyG], [.cx, .cy],
   [.ixxC, .iyyC, .ixyC], [.zxxPlus, .zxxMinus, .zyyPlus, .zyyMinus], [.myXX, .myYY], [.rxC, .ryC],
   [.i11C, .i22C], [.phi], [.z11Plus, .z11Minus, .z22Plus, .z22Minus], [.my11, .my22], [.r11C, .r22C],
   [.eEff, .gEff, .nuEff], [.j], [.xSe, .ySe], [.x11Se, .y22Se], [.xSt, .ySt], [.gamma], [.aSx, .aSy],
   [.aS11, .aS22], [.betaXPlus, .betaXMinus, .betaYPlus, .betaYMinus],
   [.beta11Plus, .beta11Minus, .beta22Plus, .beta22Minus], [.xPc, .yPc], [.x11Pc, .y22Pc],
   [.sxx, .syy], [.s11, .s22], [.sfXXPlus, .sfXXMinus, .sfYYPlus, .sfYYMinus],
   [.sf11Plus, .sf11Minus, .sf22Plus, .sf22Minus]]

/-- The documented name of a quantity; the empty name for quantities that are not shown. -/
def quantityName : Field → String
  | .area => "area" | .perimeter => "perimeter" | .mass => "mass" | .ea => "a"
  | .qx => "qx" | .qy => "qy"
  | .ixxG => "ixx_g" | .iyyG => "iyy_g" | .ixyG => "ixy_g"
  | .cx => "cx" | .cy => "cy"
  | .ixxC => "ixx_c" | .iyyC => "iyy_c" | .ixyC => "ixy_c"
  | .zxxPlus => "zxx+" | .zxxMinus => "zxx-" | .zyyPlus => "zyy+" | .zyyMinus => "zyy-"
  | .myXX => "my_xx" | .myYY => "my_yy"
  | .rxC => "rx" | .ryC => "ry"
  | .i11C => "i11_c" | .i22C => "i22_c"
  | .phi => "phi"
  | .z11Plus => "z11+" | .z11Minus => "z11-" | .z22Plus => "z22+" | .z22Minus => "z22-"
  | .my11 => "my_11" | .my22 => "my_22"
  | .r11C => "r11" | .r22C => "r22"
  | .eEff => "e_eff" | .gEff => "g_eff" | .nuEff => "nu_eff"
  | .j => "j"
  | .xSe => "x_se" | .ySe => "y_se" | .x11Se => "x1_se" | .y22Se => "y2_se"
  | .xSt => "x_st" | .ySt => "y_st"
  | .gamma => "gamma"
  | .aSx => "a_sx" | .aSy => "a_sy" | .aS11 => "a_s11" | .aS22 => "a_s22"
  | .betaXPlus => "beta_x+" | .betaXMinus => "beta_x-"
  | .betaYPlus => "beta_y+" | .betaYMinus => "beta_y-"
  | .beta11Plus => "beta_11+" | .beta11Minus => "beta_11-"
  | .beta22Plus => "beta_22+" | .beta22Minus => "beta_22-"
  | .xPc => "x_pc" | .yPc => "y_pc" | .x11Pc => "x11_pc" | .y22Pc => "y22_pc"
  | .sxx => "sxx" | .syy => "syy" | .s11 => "s11" | .s22 => "s22"
  | .sfXXPlus => "sf_xx+" | .sfXXMinus => "sf_xx-" | .sfYYPlus => "sf_yy+" | .sfYYMinus => "sf_yy-"
  | .sf11Plus => "sf_11+" | .sf11Minus => "sf_11-" | .sf22Plus => "sf_22+" | .sf22Minus => "sf_22-"
  | .ga | .deltaS | .aSxy => ""

/-- The name of a plastic moment: what `sxx` etc. are for a composite section. -/
def plasticMomentName : Field → Option String
  | .sxx => some "mp_xx" | .syy => some "mp_yy" | .s11 => some "mp_11" | .s22 => some "mp_22"
  | _ => none

/-- Rigidities: quantities weighted with the elastic modulus. -/
def isRigidity : Field → Bool
  | .ea | .qx | .qy | .ixxG | .iyyG | .ixyG | .ixxC | .iyyC | .ixyC => true
  | .zxxPlus | .zxxMinus | .zyyPlus | .zyyMinus | .i11C | .i22C => true
  | .z11Plus | .z11Minus | .z22Plus | .z22Minus | .j | .gamma | .aSx | .aSy | .aS11 | .aS22 => true
  | _ => false

/-- Quantities that only composite sections have. -/
def compositeOnlyField : Field → Bool
  | .mass | .ea | .myXX | .myYY | .my11 | .my22 | .eEff | .gEff | .nuEff => true
  | _ => false

/-- Positions are stored relative to the elastic centroid (and, for the plastic centroid of the
principal axes, in principal directions); they are shown in global coordinates. -/
noncomputable def shownValue (v : Field → ℝ) : Field → ℝ
  | .xSe => v .cx + v .xSe
  | .ySe => v .cy + v .ySe
  | .xSt => v .cx + v .xSt
  | .ySt => v .cy + v .ySt
  | .xPc => v .cx + v .xPc
  | .yPc => v .cy + v .yPc
  | .x11Pc => v .cx + (v .x11Pc * Real.cos (v .phi * Real.pi / 180)
      - v .y22Pc * Real.sin (v .phi * Real.pi / 180))
  | .y22Pc => v .cy + (v .x11Pc * Real.sin (v .phi * Real.pi / 180)
      + v .y22Pc * Real.cos (v .phi * Real.pi / 180))
  | f => v f

/-- What else a position needs. -/
def alsoNeeds : Field → List Field
  | .xSe | .ySe | .xSt | .ySt | .xPc | .yPc => [.cx, .cy]
  | .x11Pc | .y22Pc => [.cx, .cy, .phi]
  | _ => []

/-- All of a group, and what is needed to place it, has been computed. -/
def GroupComputed {n : ℕ} (p : Store n) (grp : List Field) : Prop :=
  ∀ f ∈ grp, (p.val f).isSome ∧ ∀ q ∈ alsoNeeds f, (p.val q).isSome

/-- The name in the table of `display_results`: for a composite section rigidities are marked by `e.`,
and plastic moments take the place of plastic section moduli. -/
def displayName (composite : Bool) (f : Field) : String :=
  if composite then
    match plasticMomentName f with
    | some l => l
    | none => if isRigidity f then "e." ++ quantityName f else quantityName f
  else quantityName f

/-- The name in the table of `display_transformed_results`: the transformed area is `a`, so the
geometric area gets another name. -/
def transformedName (f : Field) : String :=
  if f = .area then "geom area" else
    match plasticMomentName f with
    | some l => l
    | none => quantityName f

/-- The rows of `display_results`. -/
noncomputable def displayRows {n : ℕ} (composite : Bool) (p : Store n) (v : Field → ℝ)
    (fmt : ℝ → String) : List (String × String) :=
  tableGroups.flatMap fun grp =>
    if GroupComputed p grp then
      (grp.filter fun f => composite || !compositeOnlyField f).map fun f =>
        (displayName composite f, fmt (shownValue v f))
    else []

/-- The rows of `display_transformed_results` for some groups: rigidities are divided by `er`. -/
noncomputable def transformedRows {n : ℕ} (p : Store n) (v : Field → ℝ) (er : ℝ) (fmt : ℝ → String)
    (groups : List (List Field)) : List (String × String) :=
  groups.flatMap fun grp =>
    if GroupComputed p grp then
      grp.map fun f =>
        (transformedName f, fmt (if isRigidity f then shownValue v f / er else shownValue v f))
    else []

end SP.Spec
