import Verif.Model.Store

/-!
# The getters as one family

Only to be able to quantify over "all getters": `callGetter` returns the tuple of the getter as a list.
-/

namespace SP

/-- The names of the getters of section.py 1935-3272. -/
inductive Getter where
  | getArea | getPerimeter | getMass | getEa | getQ | getEq | getIg
  | getEig | getC | getIc | getEic | getZ | getEz | getMy
  | getRc | getIp | getEip | getPhi | getZp | getEzp | getMyP
  | getRp | getNuEff | getEEff | getGEff | getJ | getEj | getSc
  | getScP | getScT | getGamma | getEgamma | getAs | getEas | getAsP
  | getEasP | getBeta | getBetaP | getPc | getPcP | getS | getMp
  | getSp | getMpP | getSf | getSfP
  deriving DecidableEq

/-- One number as a list.  (section.py 1935-3272: the return types of the getters.) -/
def list1 (a : ℝ) : List ℝ := [a]
/-- A two-tuple as a list (section.py 2028, 2171 and others). -/
def list2 (a : ℝ × ℝ) : List ℝ := [a.1, a.2]
/-- A three-tuple as a list (section.py 2091, 2186 and others). -/
def list3 (a : ℝ × ℝ × ℝ) : List ℝ := [a.1, a.2.1, a.2.2]
/-- A four-tuple as a list (section.py 2266, 2470 and others). -/
def list4 (a : ℝ × ℝ × ℝ × ℝ) : List ℝ := [a.1, a.2.1, a.2.2.1, a.2.2.2]

/-- The call of a getter on a section with materials `ms` and store `p` (section.py 1935-3272; `eRef` is
ignored by the getters that do not have this argument). -/
noncomputable def callGetter {n : ℕ} (g : Getter) (ms : List MatObj) (p : Store n) (eRef : ERef) :
    Except PyErr (List ℝ) :=
  match g with
  | .getArea => (getArea p).map list1
  | .getPerimeter => (getPerimeter p).map list1
  | .getMass => (getMass ms p).map list1
  | .getEa => (getEa ms p eRef).map list1
  | .getQ => (getQ ms p).map list2
  | .getEq => (getEq ms p eRef).map list2
  | .getIg => (getIg ms p).map list3
  | .getEig => (getEig ms p eRef).map list3
  | .getC => (getC p).map list2
  | .getIc => (getIc ms p).map list3
  | .getEic => (getEic ms p eRef).map list3
  | .getZ => (getZ ms p).map list4
  | .getEz => (getEz ms p eRef).map list4
  | .getMy => (getMy ms p).map list2
  | .getRc => (getRc p).map list2
  | .getIp => (getIp ms p).map list2
  | .getEip => (getEip ms p eRef).map list2
  | .getPhi => (getPhi p).map list1
  | .getZp => (getZp ms p).map list4
  | .getEzp => (getEzp ms p eRef).map list4
  | .getMyP => (getMyP ms p).map list2
  | .getRp => (getRp p).map list2
  | .getNuEff => (getNuEff ms p).map list1
  | .getEEff => (getEEff ms p).map list1
  | .getGEff => (getGEff ms p).map list1
  | .getJ => (getJ ms p).map list1
  | .getEj => (getEj ms p eRef).map list1
  | .getSc => (getSc p).map list2
  | .getScP => (getScP p).map list2
  | .getScT => (getScT p).map list2
  | .getGamma => (getGamma ms p).map list1
  | .getEgamma => (getEgamma ms p eRef).map list1
  | .getAs => (getAs ms p).map list2
  | .getEas => (getEas ms p eRef).map list2
  | .getAsP => (getAsP ms p).map list2
  | .getEasP => (getEasP ms p eRef).map list2
  | .getBeta => (getBeta p).map list4
  | .getBetaP => (getBetaP p).map list4
  | .getPc => (getPc p).map list2
  | .getPcP => (getPcP p).map list2
  | .getS => (getS ms p).map list2
  | .getMp => (getMp ms p).map list2
  | .getSp => (getSp ms p).map list2
  | .getMpP => (getMpP ms p).map list2
  | .getSf => (getSf p).map list4
  | .getSfP => (getSfP p).map list4

end SP
