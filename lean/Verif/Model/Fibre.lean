import Verif.Model.Warping

/-!
# Model of `post/fibre.py`

Text is a list of characters.  `f"{x:.8e}"` is a parameter `fmt`.
-/

namespace SP

/-- A Python string.  (fibre.py 128-222.) -/
abbrev Text := List Char

/-- The characters that Python's `str.split()` takes as white space.  (fibre.py 60, 216.) -/
def pySpace (c : Char) : Bool :=
  let v := c.toNat
  (9 ≤ v && v ≤ 13) || (28 ≤ v && v ≤ 32) || v == 0x85 || v == 0xA0 || v == 0x1680 ||
    (0x2000 ≤ v && v ≤ 0x200A) || v == 0x2028 || v == 0x2029 || v == 0x202F || v == 0x205F || v == 0x3000

/-- `str.split()`: the pieces between white space; `cur` is the piece read so far, backwards.  (fibre.py 60, 216.) -/
def pySplit (cur : Text) : Text → List Text
  | [] => if cur = [] then [] else [cur.reverse]
  | c :: cs =>
    if pySpace c then
      if cur = [] then pySplit [] cs else cur.reverse :: pySplit [] cs
    else pySplit (c :: cur) cs

/-- `sep.join(parts)`.  (fibre.py 60, 211, 216.) -/
def pyJoin (sep : Text) : List Text → Text
  | [] => []
  | [t] => t
  | t :: ts => t ++ sep ++ pyJoin sep ts

/-- fibre.py 60 and 216: `"-".join(name.split())`. -/
def dashed (name : Text) : Text := pyJoin ['-'] (pySplit [] name)

/-- `str(n)` of an integer.  (fibre.py 216.) -/
def pyStr (n : ℤ) : Text := if n < 0 then '-' :: Nat.toDigits 10 n.natAbs else Nat.toDigits 10 n.natAbs

/-- `str.replace(old, new)` for non-empty `old`: from left to right, without overlaps.  (fibre.py 216.) -/
def replaceNonempty (old new : Text) : ℕ → Text → Text
  | 0, t => t
  | _ + 1, [] => []
  | k + 1, c :: cs =>
    if old.isPrefixOf (c :: cs) then new ++ replaceNonempty old new k ((c :: cs).drop old.length)
    else c :: replaceNonempty old new k cs

/-- `text.replace(old, new)`; an empty `old` matches before each character and at the end.  (fibre.py 216.) -/
def pyReplace (old new text : Text) : Text :=
  if old = [] then new ++ text.flatMap fun c => c :: new
  else replaceNonempty old new text.length text

/-- fibre.py 21-42: the attributes of a `Cell`. -/
structure Cell where
  tag : ℤ
  area : ℝ
  material : Text
  y : ℝ
  z : ℝ
  omega : ℝ
  py : ℝ
  pz : ℝ

/-- fibre.py 44-70: `Cell.__init__`. -/
noncomputable def mkCell {n : ℕ} (t : Tri6 n) (omega : Option (Fin n → ℝ)) : Cell :=
  let s := shapeFunction t.coords ⟨0, 1 / 3, 1 / 3, 1 / 3⟩
  { tag := t.elId + 1
    area := s.j
    material := dashed t.material.name.toList
    y := (t.coords.x 0 + t.coords.x 1 + t.coords.x 2) / 3
    z := (t.coords.y 0 + t.coords.y 1 + t.coords.y 2) / 3
    omega := match omega with
      | some u => dot6 (t.local u) s.n
      | none => 0
    py := match omega with
      | some u => dot6 s.bx (t.local u)
      | none => 0
    pz := match omega with
      | some u => dot6 s.by' (t.local u)
      | none => 0 }

/-- fibre.py 169-178: the three kinds of analysis. -/
inductive FibreKind where
  | two
  | three
  | threeOS
  deriving DecidableEq

/-- fibre.py 167-181: `analysis_type.upper()` and the choice of the classes (upper case of ASCII letters
only). -/
def fibreKind (analysisType : Text) : Except PyErr FibreKind :=
  let a := analysisType.map Char.toUpper
  if a = "2D".toList then .ok .two
  else if a = "3D".toList then .ok .three
  else if a = "3DOS".toList then .ok .threeOS
  else .error .valueError

/-- fibre.py 172, 175, 178. -/
def FibreKind.fibreClass : FibreKind → Text
  | .two => "Fibre2D".toList
  | .three => "Fibre3D".toList
  | .threeOS => "Fibre3DOS".toList

/-- fibre.py 87-93: `Cell2D.export`. -/
noncomputable def Cell.export2D (fmt : ℝ → Text) (c : Cell) : Text :=
  "section Cell2D ".toList ++ pyStr c.tag ++ " ".toList ++ fmt c.area ++ " ".toList ++ c.material
    ++ " ".toList ++ fmt c.y

/-- fibre.py 99-108: `Cell3D.export`. -/
noncomputable def Cell.export3D (fmt : ℝ → Text) (c : Cell) : Text :=
  "section Cell3D ".toList ++ pyStr c.tag ++ " ".toList ++ fmt c.area ++ " ".toList ++ c.material
    ++ " ".toList ++ fmt c.y ++ " ".toList ++ fmt c.z

/-- fibre.py 114-125: `Cell3DOS.export`. -/
noncomputable def Cell.export3DOS (fmt : ℝ → Text) (c : Cell) : Text :=
  "section Cell3DOS ".toList ++ pyStr c.tag ++ " ".toList ++ fmt c.area
    ++ " ".toList ++ fmt c.omega ++ " ".toList ++ fmt c.py ++ " ".toList ++ fmt c.pz
    ++ " ".toList ++ c.material
    ++ " ".toList ++ fmt c.y ++ " ".toList ++ fmt c.z

/-- `cell.export()` for the chosen class.  (fibre.py 73-125, 211.) -/
noncomputable def Cell.export (fmt : ℝ → Text) : FibreKind → Cell → Text
  | .two => Cell.export2D fmt
  | .three => Cell.export3D fmt
  | .threeOS => Cell.export3DOS fmt

/-- fibre.py 193-200: the lines of the comment. -/
def fibreComment : List String :=
  ["# This is generated by sectionproperties library.",
   "# Please note the following:",
   "#   1. The warping function and its derivatives (if present) are computed in the",
   "#      local coordinate system (about origin).",
   "#   2. Beware of the potential different orientations of beam section.",
   "#   3. It may be necessary to manually adjust the material tags.",
   "#   4. If uncertain, please validate the behaviour first."]

/-- fibre.py 193-200: the comment, each line ended. -/
def fibreHeader : Text := fibreComment.flatMap fun l => l.toList ++ "\n".toList

/-- fibre.py 203-208: the loop that lists the tags; what it appends to `commands`, and the final `part`. -/
def mainLoop (maxWidth : ℤ) : Text → List ℤ → Text × Text
  | part, [] => ([], part)
  | part, tag :: tags =>
    let part' := part ++ pyStr tag ++ " ".toList
    if (part'.length : ℤ) > maxWidth then
      let r := mainLoop maxWidth [] tags
      (part' ++ "\\\n".toList ++ r.1, r.2)
    else mainLoop maxWidth part' tags

/-- fibre.py 202-210: the main command. -/
def mainCommand (k : FibreKind) (mainTag : ℤ) (maxWidth : ℤ) (tags : List ℤ) : Text :=
  let r := mainLoop maxWidth ("section ".toList ++ k.fibreClass ++ " ".toList ++ pyStr mainTag ++ " ".toList) tags
  r.1 ++ r.2 ++ "\n\n".toList

/-- fibre.py 193-212: the text before the mapping of the materials. -/
noncomputable def fibreText (fmt : ℝ → Text) (k : FibreKind) (mainTag maxWidth : ℤ) (cells : List Cell) : Text :=
  fibreHeader ++ mainCommand k mainTag maxWidth (cells.map (·.tag))
    ++ pyJoin "\n".toList (cells.map (Cell.export fmt k)) ++ "\n\n".toList

/-- fibre.py 214-216: the mapping of the materials. -/
def mapMaterials (mapping : List (Text × ℤ)) (text : Text) : Text :=
  mapping.foldl (fun t p => pyReplace (dashed p.1) (pyStr p.2) t) text

/-- fibre.py 159-165: the first argument; a section stands for its geometry. -/
inductive FibreArg where
  | geometry (g : GeomIn)
  | section (g : GeomIn)
  | other

/-- fibre.py 185-191 and 204: the cells, with their final tags. -/
noncomputable def fibreCells (sv : Solvers) (k : FibreKind) (mainTag : ℤ) (s : Section) :
    Except PyErr (List Cell) :=
  let retag := fun c : Cell => { c with tag := c.tag + mainTag }
  match k with
  | .threeOS =>
    let a := assembleTorsion s.elements
    match solveDirectLagrange sv a.1 a.2 with
    | .error e => .error e
    | .ok u => .ok (s.elements.map fun t => retag (mkCell t (some u)))
  | _ => .ok (s.elements.map fun t => retag (mkCell t none))

/-- fibre.py 214-216: the mapping, if there is one. -/
def applyMapping (mapping : Option (List (Text × ℤ))) (text : Text) : Text :=
  match mapping with
  | none => text
  | some m => mapMaterials m text

/-- fibre.py 167-216: the commands for a geometry. -/
noncomputable def fibreOf (sv : Solvers) (fmt : ℝ → Text) (mainTag : ℤ)
    (analysisType : Text) (mapping : Option (List (Text × ℤ))) (maxWidth : ℤ) (g : GeomIn) : Except PyErr Text :=
  match fibreKind analysisType with
  | .error e => .error e
  | .ok k =>
    match Section.init g with
    | .error e => .error e
    | .ok s =>
      match fibreCells sv k mainTag s with
      | .error e => .error e
      | .ok cells => .ok (applyMapping mapping (fibreText fmt k mainTag maxWidth cells))

/-- fibre.py 128-222: `to_fibre_section`; returns the commands (which are also what is written to the file
`save_to`, if it is given). -/
noncomputable def toFibreSection (sv : Solvers) (fmt : ℝ → Text) (obj : FibreArg) (mainTag : ℤ)
    (analysisType : Text) (mapping : Option (List (Text × ℤ))) (maxWidth : ℤ) : Except PyErr Text :=
  match obj with
  | .geometry g => fibreOf sv fmt mainTag analysisType mapping maxWidth g
  | .section g => fibreOf sv fmt mainTag analysisType mapping maxWidth g
  | .other => .error .typeError

end SP
