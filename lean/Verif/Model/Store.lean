import Verif.Model.Stress
import Verif.Model.Plastic

/-!
# Model of the property store and of its getters

`SectionProperties` (post/post.py 131-216) with `None` for values not computed, and the getters of
section.py 1906-3272.
-/

namespace SP

open Classical

/-- post.py 131-216: the scalar attributes of `SectionProperties`. -/
inductive Field where
  | area | perimeter | mass | ea | ga | nuEff | eEff | gEff
  | qx | qy | ixxG | iyyG | ixyG | cx | cy | ixxC
  | iyyC | ixyC | zxxPlus | zxxMinus | zyyPlus | zyyMinus | rxC | ryC
  | i11C | i22C | phi | z11Plus | z11Minus | z22Plus | z22Minus | r11C
  | r22C | j | myXX | myYY | my11 | my22 | deltaS | xSe
  | ySe | x11Se | y22Se | xSt | ySt | gamma | aSx | aSy
  | aSxy | aS11 | aS22 | betaXPlus | betaXMinus | betaYPlus | betaYMinus | beta11Plus
  | beta11Minus | beta22Plus | beta22Minus | xPc | yPc | x11Pc | y22Pc | sxx
  | syy | sfXXPlus | sfXXMinus | sfYYPlus | sfYYMinus | s11 | s22 | sf11Plus
  | sf11Minus | sf22Plus | sf22Minus
  deriving DecidableEq

/-- post.py 131-216: `SectionProperties`; the three nodal vectors are separate. -/
structure Store (n : ℕ) where
  val : Field → Option ℝ
  omega : Option (Fin n → ℝ)
  psi : Option (Fin n → ℝ)
  phiS : Option (Fin n → ℝ)

/-- A new `SectionProperties()` (section.py 174): everything `None`. -/
def Store.empty (n : ℕ) : Store n := ⟨fun _ => none, none, none, none⟩

/-- The argument `e_ref` of the composite getters: a number or a `Material`.  (section.py 1917-1933.) -/
inductive ERef where
  | num (e : ℝ)
  | mat (m : Material)

/-- section.py 1917-1933: `get_e_ref`. -/
noncomputable def ERef.value : ERef → ℝ
  | .num e => e
  | .mat m => m.elasticModulus

/-! ### Getters, section.py 1935-3272

`ms` is `self.materials`, `p` is `self.section_props`. -/

/-- section.py 1935-1948. -/
noncomputable def getArea {n : ℕ} (p : Store n) : Except PyErr ℝ :=
  match p.val .area with
  | some a => .ok a
  | none => .error .runtimeError

/-- section.py 1950-1963. -/
noncomputable def getPerimeter {n : ℕ} (p : Store n) : Except PyErr ℝ :=
  match p.val .perimeter with
  | some a => .ok a
  | none => .error .runtimeError

/-- section.py 1965-1988. -/
noncomputable def getMass {n : ℕ} (ms : List MatObj) (p : Store n) : Except PyErr ℝ :=
  if ¬ isComposite ms then .error .runtimeError else
  match p.val .mass with
  | some a => .ok a
  | none => .error .runtimeError

/-- section.py 1990-2026. -/
noncomputable def getEa {n : ℕ} (ms : List MatObj) (p : Store n) (eRef : ERef) : Except PyErr ℝ :=
  if ¬ isComposite ms then .error .runtimeError else
  match p.val .ea with
  | some a => .ok (a / eRef.value)
  | none => .error .runtimeError

/-- section.py 2028-2050. -/
noncomputable def getQ {n : ℕ} (ms : List MatObj) (p : Store n) : Except PyErr (ℝ × ℝ) :=
  if isComposite ms then .error .runtimeError else
  match p.val .qx, p.val .qy with
  | some a, some b => .ok (a, b)
  | _, _ => .error .runtimeError

/-- section.py 2052-2089. -/
noncomputable def getEq {n : ℕ} (ms : List MatObj) (p : Store n) (eRef : ERef) : Except PyErr (ℝ × ℝ) :=
  if ¬ isComposite ms then .error .runtimeError else
  match p.val .qx, p.val .qy with
  | some a, some b => .ok (a / eRef.value, b / eRef.value)
  | _, _ => .error .runtimeError

/-- section.py 2091-2122. -/
noncomputable def getIg {n : ℕ} (ms : List MatObj) (p : Store n) : Except PyErr (ℝ × ℝ × ℝ) :=
  if isComposite ms then .error .runtimeError else
  match p.val .ixxG, p.val .iyyG, p.val .ixyG with
  | some a, some b, some c => .ok (a, b, c)
  | _, _, _ => .error .runtimeError

/-- section.py 2124-2169. -/
noncomputable def getEig {n : ℕ} (ms : List MatObj) (p : Store n) (eRef : ERef) :
    Except PyErr (ℝ × ℝ × ℝ) :=
  if ¬ isComposite ms then .error .runtimeError else
  match p.val .ixxG, p.val .iyyG, p.val .ixyG with
  | some a, some b, some c => .ok (a / eRef.value, b / eRef.value, c / eRef.value)
  | _, _, _ => .error .runtimeError

/-- section.py 2171-2184. -/
noncomputable def getC {n : ℕ} (p : Store n) : Except PyErr (ℝ × ℝ) :=
  match p.val .cx, p.val .cy with
  | some a, some b => .ok (a, b)
  | _, _ => .error .runtimeError

/-- section.py 2186-2217. -/
noncomputable def getIc {n : ℕ} (ms : List MatObj) (p : Store n) : Except PyErr (ℝ × ℝ × ℝ) :=
  if isComposite ms then .error .runtimeError else
  match p.val .ixxC, p.val .iyyC, p.val .ixyC with
  | some a, some b, some c => .ok (a, b, c)
  | _, _, _ => .error .runtimeError

/-- section.py 2219-2264. -/
noncomputable def getEic {n : ℕ} (ms : List MatObj) (p : Store n) (eRef : ERef) :
    Except PyErr (ℝ × ℝ × ℝ) :=
  if ¬ isComposite ms then .error .runtimeError else
  match p.val .ixxC, p.val .iyyC, p.val .ixyC with
  | some a, some b, some c => .ok (a / eRef.value, b / eRef.value, c / eRef.value)
  | _, _, _ => .error .runtimeError

/-- section.py 2266-2299. -/
noncomputable def getZ {n : ℕ} (ms : List MatObj) (p : Store n) : Except PyErr (ℝ × ℝ × ℝ × ℝ) :=
  if isComposite ms then .error .runtimeError else
  match p.val .zxxPlus, p.val .zxxMinus, p.val .zyyPlus, p.val .zyyMinus with
  | some a, some b, some c, some d => .ok (a, b, c, d)
  | _, _, _, _ => .error .runtimeError

/-- section.py 2301-2349. -/
noncomputable def getEz {n : ℕ} (ms : List MatObj) (p : Store n) (eRef : ERef) :
    Except PyErr (ℝ × ℝ × ℝ × ℝ) :=
  if ¬ isComposite ms then .error .runtimeError else
  match p.val .zxxPlus, p.val .zxxMinus, p.val .zyyPlus, p.val .zyyMinus with
  | some a, some b, some c, some d => .ok (a / eRef.value, b / eRef.value, c / eRef.value, d / eRef.value)
  | _, _, _, _ => .error .runtimeError

/-- section.py 2351-2375. -/
noncomputable def getMy {n : ℕ} (ms : List MatObj) (p : Store n) : Except PyErr (ℝ × ℝ) :=
  if ¬ isComposite ms then .error .runtimeError else
  match p.val .myXX, p.val .myYY with
  | some a, some b => .ok (a, b)
  | _, _ => .error .runtimeError

/-- section.py 2377-2390. -/
noncomputable def getRc {n : ℕ} (p : Store n) : Except PyErr (ℝ × ℝ) :=
  match p.val .rxC, p.val .ryC with
  | some a, some b => .ok (a, b)
  | _, _ => .error .runtimeError

/-- section.py 2392-2414. -/
noncomputable def getIp {n : ℕ} (ms : List MatObj) (p : Store n) : Except PyErr (ℝ × ℝ) :=
  if isComposite ms then .error .runtimeError else
  match p.val .i11C, p.val .i22C with
  | some a, some b => .ok (a, b)
  | _, _ => .error .runtimeError

/-- section.py 2416-2453. -/
noncomputable def getEip {n : ℕ} (ms : List MatObj) (p : Store n) (eRef : ERef) : Except PyErr (ℝ × ℝ) :=
  if ¬ isComposite ms then .error .runtimeError else
  match p.val .i11C, p.val .i22C with
  | some a, some b => .ok (a / eRef.value, b / eRef.value)
  | _, _ => .error .runtimeError

/-- section.py 2455-2468. -/
noncomputable def getPhi {n : ℕ} (p : Store n) : Except PyErr ℝ :=
  match p.val .phi with
  | some a => .ok a
  | none => .error .runtimeError

/-- section.py 2470-2503. -/
noncomputable def getZp {n : ℕ} (ms : List MatObj) (p : Store n) : Except PyErr (ℝ × ℝ × ℝ × ℝ) :=
  if isComposite ms then .error .runtimeError else
  match p.val .z11Plus, p.val .z11Minus, p.val .z22Plus, p.val .z22Minus with
  | some a, some b, some c, some d => .ok (a, b, c, d)
  | _, _, _, _ => .error .runtimeError

/-- section.py 2505-2553. -/
noncomputable def getEzp {n : ℕ} (ms : List MatObj) (p : Store n) (eRef : ERef) :
    Except PyErr (ℝ × ℝ × ℝ × ℝ) :=
  if ¬ isComposite ms then .error .runtimeError else
  match p.val .z11Plus, p.val .z11Minus, p.val .z22Plus, p.val .z22Minus with
  | some a, some b, some c, some d => .ok (a / eRef.value, b / eRef.value, c / eRef.value, d / eRef.value)
  | _, _, _, _ => .error .runtimeError

/-- section.py 2555-2579. -/
noncomputable def getMyP {n : ℕ} (ms : List MatObj) (p : Store n) : Except PyErr (ℝ × ℝ) :=
  if ¬ isComposite ms then .error .runtimeError else
  match p.val .my11, p.val .my22 with
  | some a, some b => .ok (a, b)
  | _, _ => .error .runtimeError

/-- section.py 2581-2594. -/
noncomputable def getRp {n : ℕ} (p : Store n) : Except PyErr (ℝ × ℝ) :=
  match p.val .r11C, p.val .r22C with
  | some a, some b => .ok (a, b)
  | _, _ => .error .runtimeError

/-- section.py 2596-2618. -/
noncomputable def getNuEff {n : ℕ} (ms : List MatObj) (p : Store n) : Except PyErr ℝ :=
  if ¬ isComposite ms then .error .runtimeError else
  match p.val .nuEff with
  | some a => .ok a
  | none => .error .runtimeError

/-- section.py 2620-2642. -/
noncomputable def getEEff {n : ℕ} (ms : List MatObj) (p : Store n) : Except PyErr ℝ :=
  if ¬ isComposite ms then .error .runtimeError else
  match p.val .eEff with
  | some a => .ok a
  | none => .error .runtimeError

/-- section.py 2644-2666. -/
noncomputable def getGEff {n : ℕ} (ms : List MatObj) (p : Store n) : Except PyErr ℝ :=
  if ¬ isComposite ms then .error .runtimeError else
  match p.val .gEff with
  | some a => .ok a
  | none => .error .runtimeError

/-- section.py 2668-2690. -/
noncomputable def getJ {n : ℕ} (ms : List MatObj) (p : Store n) : Except PyErr ℝ :=
  if isComposite ms then .error .runtimeError else
  match p.val .j with
  | some a => .ok a
  | none => .error .runtimeError

/-- section.py 2692-2728. -/
noncomputable def getEj {n : ℕ} (ms : List MatObj) (p : Store n) (eRef : ERef) : Except PyErr ℝ :=
  if ¬ isComposite ms then .error .runtimeError else
  match p.val .j with
  | some a => .ok (a / eRef.value)
  | none => .error .runtimeError

/-- section.py 2730-2752. -/
noncomputable def getSc {n : ℕ} (p : Store n) : Except PyErr (ℝ × ℝ) :=
  match p.val .xSe, p.val .ySe, p.val .cx, p.val .cy with
  | some a, some b, some c, some d => .ok (a + c, b + d)
  | _, _, _, _ => .error .runtimeError

/-- section.py 2754-2767. -/
noncomputable def getScP {n : ℕ} (p : Store n) : Except PyErr (ℝ × ℝ) :=
  match p.val .x11Se, p.val .y22Se with
  | some a, some b => .ok (a, b)
  | _, _ => .error .runtimeError

/-- section.py 2769-2791. -/
noncomputable def getScT {n : ℕ} (p : Store n) : Except PyErr (ℝ × ℝ) :=
  match p.val .xSt, p.val .ySt, p.val .cx, p.val .cy with
  | some a, some b, some c, some d => .ok (a + c, b + d)
  | _, _, _, _ => .error .runtimeError

/-- section.py 2793-2816. -/
noncomputable def getGamma {n : ℕ} (ms : List MatObj) (p : Store n) : Except PyErr ℝ :=
  if isComposite ms then .error .runtimeError else
  match p.val .gamma with
  | some a => .ok a
  | none => .error .runtimeError

/-- section.py 2818-2854. -/
noncomputable def getEgamma {n : ℕ} (ms : List MatObj) (p : Store n) (eRef : ERef) : Except PyErr ℝ :=
  if ¬ isComposite ms then .error .runtimeError else
  match p.val .gamma with
  | some a => .ok (a / eRef.value)
  | none => .error .runtimeError

/-- section.py 2856-2878. -/
noncomputable def getAs {n : ℕ} (ms : List MatObj) (p : Store n) : Except PyErr (ℝ × ℝ) :=
  if isComposite ms then .error .runtimeError else
  match p.val .aSx, p.val .aSy with
  | some a, some b => .ok (a, b)
  | _, _ => .error .runtimeError

/-- section.py 2880-2917. -/
noncomputable def getEas {n : ℕ} (ms : List MatObj) (p : Store n) (eRef : ERef) : Except PyErr (ℝ × ℝ) :=
  if ¬ isComposite ms then .error .runtimeError else
  match p.val .aSx, p.val .aSy with
  | some a, some b => .ok (a / eRef.value, b / eRef.value)
  | _, _ => .error .runtimeError

/-- section.py 2919-2943. -/
noncomputable def getAsP {n : ℕ} (ms : List MatObj) (p : Store n) : Except PyErr (ℝ × ℝ) :=
  if isComposite ms then .error .runtimeError else
  match p.val .aS11, p.val .aS22 with
  | some a, some b => .ok (a, b)
  | _, _ => .error .runtimeError

/-- section.py 2945-2982. -/
noncomputable def getEasP {n : ℕ} (ms : List MatObj) (p : Store n) (eRef : ERef) : Except PyErr (ℝ × ℝ) :=
  if ¬ isComposite ms then .error .runtimeError else
  match p.val .aS11, p.val .aS22 with
  | some a, some b => .ok (a / eRef.value, b / eRef.value)
  | _, _ => .error .runtimeError

/-- section.py 2984-3012. -/
noncomputable def getBeta {n : ℕ} (p : Store n) : Except PyErr (ℝ × ℝ × ℝ × ℝ) :=
  match p.val .betaXPlus, p.val .betaXMinus, p.val .betaYPlus, p.val .betaYMinus with
  | some a, some b, some c, some d => .ok (a, b, c, d)
  | _, _, _, _ => .error .runtimeError

/-- section.py 3014-3042. -/
noncomputable def getBetaP {n : ℕ} (p : Store n) : Except PyErr (ℝ × ℝ × ℝ × ℝ) :=
  match p.val .beta11Plus, p.val .beta11Minus, p.val .beta22Plus, p.val .beta22Minus with
  | some a, some b, some c, some d => .ok (a, b, c, d)
  | _, _, _, _ => .error .runtimeError

/-- section.py 3044-3066. -/
noncomputable def getPc {n : ℕ} (p : Store n) : Except PyErr (ℝ × ℝ) :=
  match p.val .xPc, p.val .yPc, p.val .cx, p.val .cy with
  | some a, some b, some c, some d => .ok (a + c, b + d)
  | _, _, _, _ => .error .runtimeError

/-- section.py 3068-3095. -/
noncomputable def getPcP {n : ℕ} (p : Store n) : Except PyErr (ℝ × ℝ) :=
  match p.val .phi, p.val .x11Pc, p.val .y22Pc, p.val .cx, p.val .cy with
  | some a, some b, some c, some d, some e => .ok ((globalCoordinate a b c).1 + d, (globalCoordinate a b c).2 + e)
  | _, _, _, _, _ => .error .runtimeError

/-- section.py 3097-3119. -/
noncomputable def getS {n : ℕ} (ms : List MatObj) (p : Store n) : Except PyErr (ℝ × ℝ) :=
  if isComposite ms then .error .runtimeError else
  match p.val .sxx, p.val .syy with
  | some a, some b => .ok (a, b)
  | _, _ => .error .runtimeError

/-- section.py 3121-3145. -/
noncomputable def getMp {n : ℕ} (ms : List MatObj) (p : Store n) : Except PyErr (ℝ × ℝ) :=
  if ¬ isComposite ms then .error .runtimeError else
  match p.val .sxx, p.val .syy with
  | some a, some b => .ok (a, b)
  | _, _ => .error .runtimeError

/-- section.py 3147-3170. -/
noncomputable def getSp {n : ℕ} (ms : List MatObj) (p : Store n) : Except PyErr (ℝ × ℝ) :=
  if isComposite ms then .error .runtimeError else
  match p.val .s11, p.val .s22 with
  | some a, some b => .ok (a, b)
  | _, _ => .error .runtimeError

/-- section.py 3172-3196. -/
noncomputable def getMpP {n : ℕ} (ms : List MatObj) (p : Store n) : Except PyErr (ℝ × ℝ) :=
  if ¬ isComposite ms then .error .runtimeError else
  match p.val .s11, p.val .s22 with
  | some a, some b => .ok (a, b)
  | _, _ => .error .runtimeError

/-- section.py 3198-3234. -/
noncomputable def getSf {n : ℕ} (p : Store n) : Except PyErr (ℝ × ℝ × ℝ × ℝ) :=
  match p.val .sfXXPlus, p.val .sfXXMinus, p.val .sfYYPlus, p.val .sfYYMinus with
  | some a, some b, some c, some d => .ok (a, b, c, d)
  | _, _, _, _ => .error .runtimeError

/-- section.py 3236-3272. -/
noncomputable def getSfP {n : ℕ} (p : Store n) : Except PyErr (ℝ × ℝ × ℝ × ℝ) :=
  match p.val .sf11Plus, p.val .sf11Minus, p.val .sf22Plus, p.val .sf22Minus with
  | some a, some b, some c, some d => .ok (a, b, c, d)
  | _, _, _, _ => .error .runtimeError

end SP
