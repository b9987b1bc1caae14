import Verif.Model.GetterApi
import Verif.Model.Analyses

/-!
# Model of the printed result tables: post.py 548-1233, section.py 1864-1904

A table is the list of its rows (name, text).  The text of a number is the oracle `fmt`
(`f"{value:>{fmt}}"`).  Title, column headings and colours are not modelled.
-/

namespace SP

open Classical

/-- The rows added so far.  (post.py 548-1233.) -/
abbrev Rows := List (String × String)

/-- One block `try: values = ...; table.add_row(name, f"{value:>{fmt}}") ... except RuntimeError: pass`
of post.py 564-938 and 961-1229: `none` if the block is skipped by an `if`; otherwise the outcome of the
calls of getters and the names of the rows.  Only `RuntimeError` is caught. -/
noncomputable def addBlock (fmt : ℝ → String) (table : Rows)
    (b : Option (Except PyErr (List ℝ) × List String)) : Except PyErr Rows :=
  match b with
  | none => .ok table
  | some (.ok values, names) => .ok (table ++ names.zipWith (fun l v => (l, fmt v)) values)
  | some (.error .runtimeError, _) => .ok table
  | some (.error e, _) => .error e

/-- post.py 753-756: three getters called one after the other in one `try`. -/
noncomputable def effectiveCalls (get : Getter → Except PyErr (List ℝ)) : Except PyErr (List ℝ) := do
  let e ← get .getEEff
  let g ← get .getGEff
  let nu ← get .getNuEff
  pure (e ++ g ++ nu)

/-- post.py 564-933: the blocks of `print_results`, in order.  `get` calls a getter of the section
(without `e_ref`, i.e. with the default value 1). -/
noncomputable def resultBlocks (ms : List MatObj) (get : Getter → Except PyErr (List ℝ)) :
    List (Option (Except PyErr (List ℝ) × List String)) :=
  let always := fun (g : Getter) (l : List String) => some (get g, l)
  let composite := fun (g : Getter) (l : List String) => if isComposite ms then some (get g, l) else none
  let either := fun (g : Getter) (l : List String) (g' : Getter) (l' : List String) =>
    if ¬ isComposite ms then some (get g, l) else some (get g', l')
  [ always .getArea ["area"],
    always .getPerimeter ["perimeter"],
    composite .getMass ["mass"],
    composite .getEa ["e.a"],
    either .getQ ["qx", "qy"] .getEq ["e.qx", "e.qy"],
    either .getIg ["ixx_g", "iyy_g", "ixy_g"] .getEig ["e.ixx_g", "e.iyy_g", "e.ixy_g"],
    always .getC ["cx", "cy"],
    either .getIc ["ixx_c", "iyy_c", "ixy_c"] .getEic ["e.ixx_c", "e.iyy_c", "e.ixy_c"],
    either .getZ ["zxx+", "zxx-", "zyy+", "zyy-"] .getEz ["e.zxx+", "e.zxx-", "e.zyy+", "e.zyy-"],
    composite .getMy ["my_xx", "my_yy"],
    always .getRc ["rx", "ry"],
    either .getIp ["i11_c", "i22_c"] .getEip ["e.i11_c", "e.i22_c"],
    always .getPhi ["phi"],
    either .getZp ["z11+", "z11-", "z22+", "z22-"] .getEzp ["e.z11+", "e.z11-", "e.z22+", "e.z22-"],
    composite .getMyP ["my_11", "my_22"],
    always .getRp ["r11", "r22"],
    if isComposite ms then some (effectiveCalls get, ["e_eff", "g_eff", "nu_eff"]) else none,
    either .getJ ["j"] .getEj ["e.j"],
    always .getSc ["x_se", "y_se"],
    always .getScP ["x1_se", "y2_se"],
    always .getScT ["x_st", "y_st"],
    either .getGamma ["gamma"] .getEgamma ["e.gamma"],
    either .getAs ["a_sx", "a_sy"] .getEas ["e.a_sx", "e.a_sy"],
    either .getAsP ["a_s11", "a_s22"] .getEasP ["e.a_s11", "e.a_s22"],
    always .getBeta ["beta_x+", "beta_x-", "beta_y+", "beta_y-"],
    always .getBetaP ["beta_11+", "beta_11-", "beta_22+", "beta_22-"],
    always .getPc ["x_pc", "y_pc"],
    always .getPcP ["x11_pc", "y22_pc"],
    either .getS ["sxx", "syy"] .getMp ["mp_xx", "mp_yy"],
    either .getSp ["s11", "s22"] .getMpP ["mp_11", "mp_22"],
    always .getSf ["sf_xx+", "sf_xx-", "sf_yy+", "sf_yy-"],
    always .getSfP ["sf_11+", "sf_11-", "sf_22+", "sf_22-"] ]

/-- post.py 548-938 and section.py 1864-1874: the rows printed by `display_results`. -/
noncomputable def displayResults {n : ℕ} (ms : List MatObj) (p : Store n) (fmt : ℝ → String) :
    Except PyErr Rows :=
  (resultBlocks ms fun g => callGetter g ms p (.num 1)).foldlM (addBlock fmt) []

/-- post.py 961-980: the blocks of `print_transformed_results` before the reference modulus. -/
noncomputable def transformedHead (get : Getter → Except PyErr (List ℝ)) :
    List (Option (Except PyErr (List ℝ) × List String)) :=
  [ some (get .getArea, ["geom area"]),
    some (get .getPerimeter, ["perimeter"]),
    some (get .getMass, ["mass"]) ]

/-- post.py 985-1229: the blocks of `print_transformed_results` after the reference modulus `er`.  The
values of `ratio` blocks are divided by `er`. -/
noncomputable def transformedTail (er : ℝ) (get : Getter → Except PyErr (List ℝ)) :
    List (Option (Except PyErr (List ℝ) × List String)) :=
  let plain := fun (g : Getter) (l : List String) => some (get g, l)
  let ratio := fun (g : Getter) (l : List String) =>
    some ((get g).map fun vs => vs.map fun v => v / er, l)
  [ ratio .getEa ["a"],
    ratio .getEq ["qx", "qy"],
    ratio .getEig ["ixx_g", "iyy_g", "ixy_g"],
    plain .getC ["cx", "cy"],
    ratio .getEic ["ixx_c", "iyy_c", "ixy_c"],
    ratio .getEz ["zxx+", "zxx-", "zyy+", "zyy-"],
    plain .getMy ["my_xx", "my_yy"],
    plain .getRc ["rx", "ry"],
    ratio .getEip ["i11_c", "i22_c"],
    plain .getPhi ["phi"],
    ratio .getEzp ["z11+", "z11-", "z22+", "z22-"],
    plain .getMyP ["my_11", "my_22"],
    plain .getRp ["r11", "r22"],
    some (effectiveCalls get, ["e_eff", "g_eff", "nu_eff"]),
    ratio .getEj ["j"],
    plain .getSc ["x_se", "y_se"],
    plain .getScP ["x1_se", "y2_se"],
    plain .getScT ["x_st", "y_st"],
    ratio .getEgamma ["gamma"],
    ratio .getEas ["a_sx", "a_sy"],
    ratio .getEasP ["a_s11", "a_s22"],
    plain .getBeta ["beta_x+", "beta_x-", "beta_y+", "beta_y-"],
    plain .getBetaP ["beta_11+", "beta_11-", "beta_22+", "beta_22-"],
    plain .getPc ["x_pc", "y_pc"],
    plain .getPcP ["x11_pc", "y22_pc"],
    plain .getMp ["mp_xx", "mp_yy"],
    plain .getMpP ["mp_11", "mp_22"],
    plain .getSf ["sf_xx+", "sf_xx-", "sf_yy+", "sf_yy-"],
    plain .getSfP ["sf_11+", "sf_11-", "sf_22+", "sf_22-"] ]

/-- section.py 1876-1904 and post.py 941-1233: the rows printed by `display_transformed_results`.  For a
modulus of zero Python raises `ZeroDivisionError` at the first ratio; the model divides as real numbers
do. -/
noncomputable def displayTransformed {n : ℕ} (ms : List MatObj) (p : Store n) (eRef : ERef)
    (fmt : ℝ → String) : Except PyErr Rows :=
  if ¬ isComposite ms then .error .runtimeError else do
    let er := eRef.value
    let get := fun g => callGetter g ms p (.num 1)
    let table ← (transformedHead get).foldlM (addBlock fmt) []
    (transformedTail er get).foldlM (addBlock fmt) (table ++ [("e_ref", fmt er)])

end SP
