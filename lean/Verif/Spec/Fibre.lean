import Verif.Model.Fibre
import Verif.Spec.Fem
import Mathlib.Data.List.Infix

/-!
# Specification vocabulary for the export as a fibre section
-/

namespace SP.Spec

open MeasureTheory

/-- The text with continued lines joined: a backslash at the end of a line and the line end are left out. -/
def joinLines : List Char → List Char
  | '\\' :: '\n' :: t => joinLines t
  | c :: t => c :: joinLines t
  | [] => []

/-- The text consists of the lines `ls`, each of them ended. -/
def Lines (t : List Char) (ls : List (List Char)) : Prop :=
  t = ls.flatMap (· ++ ['\n']) ∧ ∀ l ∈ ls, '\n' ∉ l

/-- A character that formatted numbers consist of. -/
def NumChar (c : Char) : Prop := c.isDigit = true ∨ c = '-' ∨ c = '+' ∨ c = '.' ∨ c = 'e'

/-- The formatting of floats produces numbers in decimal or exponential notation. -/
def PlainNumbers (fmt : ℝ → List Char) : Prop := ∀ x, ∀ c ∈ fmt x, NumChar c

/-- The words that the exported text consists of, apart from the comment, numbers and names of materials. -/
def fibreKeywords : List String :=
  ["section", "Fibre2D", "Fibre3D", "Fibre3DOS", "Cell2D", "Cell3D", "Cell3DOS", "\\"]

/-- A name that does not occur in a number, in the comment or in one of the keywords. -/
structure Foreign (name : List Char) : Prop where
  notNumber : ∃ c ∈ name, ¬ NumChar c
  notComment : ∀ l ∈ fibreComment, ¬ name <:+: l.toList
  notKeyword : ∀ w ∈ fibreKeywords, ¬ name <:+: w.toList

/-- Words separated by single spaces. -/
def spaced : List (List Char) → List Char
  | [] => []
  | [w] => w
  | w :: ws => w ++ ' ' :: spaced ws

/-- The command for one cell: its class, its tag, its area, the warping function and its derivatives (for the
three dimensional section with warping), its material and its position. -/
noncomputable def cellCommand (fmt : ℝ → List Char) : FibreKind → Cell → List Char
  | .two, c => spaced ["section".toList, "Cell2D".toList, pyStr c.tag, fmt c.area, c.material, fmt c.y]
  | .three, c => spaced ["section".toList, "Cell3D".toList, pyStr c.tag, fmt c.area, c.material, fmt c.y, fmt c.z]
  | .threeOS, c => spaced ["section".toList, "Cell3DOS".toList, pyStr c.tag, fmt c.area, fmt c.omega, fmt c.py,
      fmt c.pz, c.material, fmt c.y, fmt c.z]

/-- The command for the whole section: its class, its tag and the tags of the cells. -/
def mainWords (k : FibreKind) (mainTag : ℤ) (tags : List ℤ) : List (List Char) :=
  ["section".toList, match k with
    | .two => "Fibre2D".toList
    | .three => "Fibre3D".toList
    | .threeOS => "Fibre3DOS".toList] ++ (mainTag :: tags).map pyStr

/-- The cell stands for the element: its area, its centroid and its material. -/
structure CellOf {n : ℕ} (t : Tri6 n) (c : Cell) : Prop where
  area : c.area = ∫ _p in elemRegion t.coords, (1 : ℝ)
  firstY : c.area * c.y = ∫ p in elemRegion t.coords, p.1
  firstZ : c.area * c.z = ∫ p in elemRegion t.coords, p.2
  material : c.material = dashed t.material.name.toList

/-- The cell carries the value and the derivatives, at its position, of the field that the nodal values `u`
define on the element. -/
def WarpOf {n : ℕ} (u : Fin n → ℝ) (t : Tri6 n) (c : Cell) : Prop :=
  ∃ q, Interpolates t.coords (fun k => u (t.nodeIds k)) q ∧ c.omega = q (c.y, c.z) ∧ c.py = dX q (c.y, c.z) ∧
    c.pz = dY q (c.y, c.z)

/-- The entry for the material in the mapping; the name itself if there is none. -/
def entryFor (mapping : List (List Char × ℤ)) (m : List Char) : List Char :=
  match mapping.find? fun p => dashed p.1 == m with
  | some p => pyStr p.2
  | none => m

end SP.Spec
