import Verif.Lemmas.OutlinePoly
import Verif.Lemmas.Round
import Verif.Props.OutlineGeometry
import Verif.Spec.Rounding

/-!
# How sums over the edges of a polygon change when its vertices are moved a little
-/

namespace SP

open Spec MeasureTheory Set

/-! ### Products -/

theorem prod2_near {x y x' y' h d : ℝ} (hh : 0 ≤ h) (hd : 0 ≤ d) (x1 : |x| ≤ h) (y2 : |y'| ≤ h) (dx : |x' - x| ≤ d) (dy : |y' - y| ≤ d) :
    |x' * y' - x * y| ≤ 2 * h * d := by
  rw [show x' * y' - x * y = (x' - x) * y' + x * (y' - y) by ring]
  refine (abs_add_le _ _).trans ?_
  rw [abs_mul, abs_mul]
  have e1 : |x' - x| * |y'| ≤ d * h := mul_le_mul dx y2 (abs_nonneg _) hd
  have e2 : |x| * |y' - y| ≤ h * d := mul_le_mul x1 dy (abs_nonneg _) hh
  linarith

theorem prod3_near {x y z x' y' z' h d : ℝ} (hh : 0 ≤ h) (hd : 0 ≤ d) (x1 : |x| ≤ h) (y1 : |y| ≤ h) (y2 : |y'| ≤ h) (z2 : |z'| ≤ h)
    (dx : |x' - x| ≤ d) (dy : |y' - y| ≤ d) (dz : |z' - z| ≤ d) : |x' * y' * z' - x * y * z| ≤ 3 * h ^ 2 * d := by
  rw [show x' * y' * z' - x * y * z = (x' * y' - x * y) * z' + x * y * (z' - z) by ring]
  refine (abs_add_le _ _).trans ?_
  rw [abs_mul, abs_mul, abs_mul]
  have e1 : |x' * y' - x * y| * |z'| ≤ 2 * h * d * h := mul_le_mul (prod2_near hh hd x1 y2 dx dy) z2 (abs_nonneg _) (by positivity)
  have e2 : |x| * |y| * |z' - z| ≤ h * h * d := mul_le_mul (mul_le_mul x1 y1 (abs_nonneg _) hh) dz (abs_nonneg _) (by positivity)
  nlinarith [e1, e2]

theorem prod4_near {x y z w x' y' z' w' h d : ℝ} (hh : 0 ≤ h) (hd : 0 ≤ d) (x1 : |x| ≤ h) (y1 : |y| ≤ h) (z1 : |z| ≤ h) (y2 : |y'| ≤ h)
    (z2 : |z'| ≤ h) (w2 : |w'| ≤ h) (dx : |x' - x| ≤ d) (dy : |y' - y| ≤ d) (dz : |z' - z| ≤ d) (dw : |w' - w| ≤ d) :
    |x' * y' * z' * w' - x * y * z * w| ≤ 4 * h ^ 3 * d := by
  rw [show x' * y' * z' * w' - x * y * z * w = (x' * y' * z' - x * y * z) * w' + x * y * z * (w' - w) by ring]
  refine (abs_add_le _ _).trans ?_
  rw [abs_mul, abs_mul, abs_mul, abs_mul]
  have e1 : |x' * y' * z' - x * y * z| * |w'| ≤ 3 * h ^ 2 * d * h :=
    mul_le_mul (prod3_near hh hd x1 y1 y2 z2 dx dy dz) w2 (abs_nonneg _) (by positivity)
  have e2 : |x| * |y| * |z| * |w' - w| ≤ h * h * h * d :=
    mul_le_mul (mul_le_mul (mul_le_mul x1 y1 (abs_nonneg _) hh) z1 (abs_nonneg _) (by positivity)) dw (abs_nonneg _) (by positivity)
  nlinarith [e1, e2]

/-! ### Edges -/

/-- Both points in the square, and one near the other. -/
structure NearIn (c : ℝ × ℝ) (h d : ℝ) (a a' : ℝ × ℝ) : Prop where
  x1 : |a.1 - c.1| ≤ h
  y1 : |a.2 - c.2| ≤ h
  x2 : |a'.1 - c.1| ≤ h
  y2 : |a'.2 - c.2| ≤ h
  dx : |a'.1 - a.1| ≤ d
  dy : |a'.2 - a.2| ≤ d

/-- An edge term that changes sign with the direction, and changes by at most `B`. -/
structure StableTerm (c : ℝ × ℝ) (h d B : ℝ) (f : ℝ × ℝ → ℝ × ℝ → ℝ) : Prop where
  anti : ∀ a b, f b a = - f a b
  near : ∀ a b a' b', NearIn c h d a a' → NearIn c h d b b' → |f a' b' - f a b| ≤ B

variable {c : ℝ × ℝ} {h d : ℝ}

noncomputable def areaTerm (c a b : ℝ × ℝ) : ℝ := cross (a - c) (b - c) / 2
noncomputable def qxTerm (c a b : ℝ × ℝ) : ℝ := cross (a - c) (b - c) * ((a - c).2 + (b - c).2) / 6
noncomputable def qyTerm (c a b : ℝ × ℝ) : ℝ := cross (a - c) (b - c) * ((a - c).1 + (b - c).1) / 6
noncomputable def ixxTerm (c a b : ℝ × ℝ) : ℝ := cross (a - c) (b - c) * ((a - c).2 ^ 2 + (a - c).2 * (b - c).2 + (b - c).2 ^ 2) / 12
noncomputable def iyyTerm (c a b : ℝ × ℝ) : ℝ := cross (a - c) (b - c) * ((a - c).1 ^ 2 + (a - c).1 * (b - c).1 + (b - c).1 ^ 2) / 12
noncomputable def ixyTerm (c a b : ℝ × ℝ) : ℝ :=
  cross (a - c) (b - c) * ((a - c).1 * (b - c).2 + 2 * (a - c).1 * (a - c).2 + 2 * (b - c).1 * (b - c).2 + (b - c).1 * (a - c).2) / 24

theorem NearIn.diff {a a' : ℝ × ℝ} (n : NearIn c h d a a') :
    |a'.1 - c.1 - (a.1 - c.1)| ≤ d ∧ |a'.2 - c.2 - (a.2 - c.2)| ≤ d := by
  constructor
  · rw [sub_sub_sub_cancel_right]; exact n.dx
  · rw [sub_sub_sub_cancel_right]; exact n.dy

theorem areaTerm_stable (hh : 0 ≤ h) (hd : 0 ≤ d) : StableTerm c h d (2 * h * d) (areaTerm c) := by
  refine ⟨fun a b => by simp only [areaTerm, cross]; ring, fun a b a' b' na nb => ?_⟩
  simp only [areaTerm, cross, Prod.fst_sub, Prod.snd_sub]
  have e1 := abs_le.1 (prod2_near hh hd na.x1 nb.y2 na.diff.1 nb.diff.2)
  have e2 := abs_le.1 (prod2_near hh hd nb.x1 na.y2 nb.diff.1 na.diff.2)
  rw [abs_le]
  constructor <;> linarith

theorem qxTerm_stable (hh : 0 ≤ h) (hd : 0 ≤ d) : StableTerm c h d (2 * h ^ 2 * d) (qxTerm c) := by
  refine ⟨fun a b => by simp only [qxTerm, cross]; ring, fun a b a' b' na nb => ?_⟩
  simp only [qxTerm, cross, Prod.fst_sub, Prod.snd_sub]
  have e1 := abs_le.1 (prod3_near hh hd na.x1 nb.y1 nb.y2 na.y2 na.diff.1 nb.diff.2 na.diff.2)
  have e2 := abs_le.1 (prod3_near hh hd na.x1 nb.y1 nb.y2 nb.y2 na.diff.1 nb.diff.2 nb.diff.2)
  have e3 := abs_le.1 (prod3_near hh hd nb.x1 na.y1 na.y2 na.y2 nb.diff.1 na.diff.2 na.diff.2)
  have e4 := abs_le.1 (prod3_near hh hd nb.x1 na.y1 na.y2 nb.y2 nb.diff.1 na.diff.2 nb.diff.2)
  rw [abs_le]
  constructor <;> linarith

theorem qyTerm_stable (hh : 0 ≤ h) (hd : 0 ≤ d) : StableTerm c h d (2 * h ^ 2 * d) (qyTerm c) := by
  refine ⟨fun a b => by simp only [qyTerm, cross]; ring, fun a b a' b' na nb => ?_⟩
  simp only [qyTerm, cross, Prod.fst_sub, Prod.snd_sub]
  have e1 := abs_le.1 (prod3_near hh hd na.x1 nb.y1 nb.y2 na.x2 na.diff.1 nb.diff.2 na.diff.1)
  have e2 := abs_le.1 (prod3_near hh hd na.x1 nb.y1 nb.y2 nb.x2 na.diff.1 nb.diff.2 nb.diff.1)
  have e3 := abs_le.1 (prod3_near hh hd nb.x1 na.y1 na.y2 na.x2 nb.diff.1 na.diff.2 na.diff.1)
  have e4 := abs_le.1 (prod3_near hh hd nb.x1 na.y1 na.y2 nb.x2 nb.diff.1 na.diff.2 nb.diff.1)
  rw [abs_le]
  constructor <;> linarith

theorem ixxTerm_stable (hh : 0 ≤ h) (hd : 0 ≤ d) : StableTerm c h d (2 * h ^ 3 * d) (ixxTerm c) := by
  refine ⟨fun a b => by simp only [ixxTerm, cross]; ring, fun a b a' b' na nb => ?_⟩
  simp only [ixxTerm, cross, Prod.fst_sub, Prod.snd_sub]
  have e1 := abs_le.1 (prod4_near hh hd na.x1 nb.y1 na.y1 nb.y2 na.y2 na.y2 na.diff.1 nb.diff.2 na.diff.2 na.diff.2)
  have e2 := abs_le.1 (prod4_near hh hd na.x1 nb.y1 na.y1 nb.y2 na.y2 nb.y2 na.diff.1 nb.diff.2 na.diff.2 nb.diff.2)
  have e3 := abs_le.1 (prod4_near hh hd na.x1 nb.y1 nb.y1 nb.y2 nb.y2 nb.y2 na.diff.1 nb.diff.2 nb.diff.2 nb.diff.2)
  have e4 := abs_le.1 (prod4_near hh hd nb.x1 na.y1 na.y1 na.y2 na.y2 na.y2 nb.diff.1 na.diff.2 na.diff.2 na.diff.2)
  have e5 := abs_le.1 (prod4_near hh hd nb.x1 na.y1 na.y1 na.y2 na.y2 nb.y2 nb.diff.1 na.diff.2 na.diff.2 nb.diff.2)
  have e6 := abs_le.1 (prod4_near hh hd nb.x1 na.y1 nb.y1 na.y2 nb.y2 nb.y2 nb.diff.1 na.diff.2 nb.diff.2 nb.diff.2)
  rw [abs_le]
  constructor <;> linarith

theorem iyyTerm_stable (hh : 0 ≤ h) (hd : 0 ≤ d) : StableTerm c h d (2 * h ^ 3 * d) (iyyTerm c) := by
  refine ⟨fun a b => by simp only [iyyTerm, cross]; ring, fun a b a' b' na nb => ?_⟩
  simp only [iyyTerm, cross, Prod.fst_sub, Prod.snd_sub]
  have e1 := abs_le.1 (prod4_near hh hd na.x1 nb.y1 na.x1 nb.y2 na.x2 na.x2 na.diff.1 nb.diff.2 na.diff.1 na.diff.1)
  have e2 := abs_le.1 (prod4_near hh hd na.x1 nb.y1 na.x1 nb.y2 na.x2 nb.x2 na.diff.1 nb.diff.2 na.diff.1 nb.diff.1)
  have e3 := abs_le.1 (prod4_near hh hd na.x1 nb.y1 nb.x1 nb.y2 nb.x2 nb.x2 na.diff.1 nb.diff.2 nb.diff.1 nb.diff.1)
  have e4 := abs_le.1 (prod4_near hh hd nb.x1 na.y1 na.x1 na.y2 na.x2 na.x2 nb.diff.1 na.diff.2 na.diff.1 na.diff.1)
  have e5 := abs_le.1 (prod4_near hh hd nb.x1 na.y1 na.x1 na.y2 na.x2 nb.x2 nb.diff.1 na.diff.2 na.diff.1 nb.diff.1)
  have e6 := abs_le.1 (prod4_near hh hd nb.x1 na.y1 nb.x1 na.y2 nb.x2 nb.x2 nb.diff.1 na.diff.2 nb.diff.1 nb.diff.1)
  rw [abs_le]
  constructor <;> linarith

theorem ixyTerm_stable (hh : 0 ≤ h) (hd : 0 ≤ d) : StableTerm c h d (2 * h ^ 3 * d) (ixyTerm c) := by
  refine ⟨fun a b => by simp only [ixyTerm, cross]; ring, fun a b a' b' na nb => ?_⟩
  simp only [ixyTerm, cross, Prod.fst_sub, Prod.snd_sub]
  have e1 := abs_le.1 (prod4_near hh hd na.x1 nb.y1 na.x1 nb.y2 na.x2 nb.y2 na.diff.1 nb.diff.2 na.diff.1 nb.diff.2)
  have e2 := abs_le.1 (prod4_near hh hd na.x1 nb.y1 na.x1 nb.y2 na.x2 na.y2 na.diff.1 nb.diff.2 na.diff.1 na.diff.2)
  have e3 := abs_le.1 (prod4_near hh hd na.x1 nb.y1 nb.x1 nb.y2 nb.x2 nb.y2 na.diff.1 nb.diff.2 nb.diff.1 nb.diff.2)
  have e4 := abs_le.1 (prod4_near hh hd na.x1 nb.y1 nb.x1 nb.y2 nb.x2 na.y2 na.diff.1 nb.diff.2 nb.diff.1 na.diff.2)
  have e5 := abs_le.1 (prod4_near hh hd nb.x1 na.y1 na.x1 na.y2 na.x2 nb.y2 nb.diff.1 na.diff.2 na.diff.1 nb.diff.2)
  have e6 := abs_le.1 (prod4_near hh hd nb.x1 na.y1 na.x1 na.y2 na.x2 na.y2 nb.diff.1 na.diff.2 na.diff.1 na.diff.2)
  have e7 := abs_le.1 (prod4_near hh hd nb.x1 na.y1 nb.x1 na.y2 nb.x2 nb.y2 nb.diff.1 na.diff.2 nb.diff.1 nb.diff.2)
  have e8 := abs_le.1 (prod4_near hh hd nb.x1 na.y1 nb.x1 na.y2 nb.x2 na.y2 nb.diff.1 na.diff.2 nb.diff.1 na.diff.2)
  rw [abs_le]
  constructor <;> linarith

/-! ### Rings and polygons -/

theorem closedEdges_mapped (r : List (ℝ × ℝ)) (g : ℝ × ℝ → ℝ × ℝ) :
    closedEdges (r.map g) = (closedEdges r).map fun e => (g e.1, g e.2) := by
  rw [closedEdges, closedEdges, ← List.map_rotate, List.zip_map]
  rfl

theorem mem_closedEdges {r : List (ℝ × ℝ)} {e : DirEdge} (he : e ∈ closedEdges r) : e.1 ∈ r ∧ e.2 ∈ r := by
  obtain ⟨a, b⟩ := e
  have := List.of_mem_zip he
  exact ⟨this.1, List.mem_rotate.1 this.2⟩

theorem sum_near {α : Type*} (L : List α) (F G : α → ℝ) {B : ℝ} (hB : ∀ a ∈ L, |F a - G a| ≤ B) :
    |(L.map F).sum - (L.map G).sum| ≤ L.length * B := by
  induction L with
  | nil => simp
  | cons a L ih =>
    have h1 := ih fun b hb => hB b (List.mem_cons_of_mem _ hb)
    have h2 := hB a (List.mem_cons_self ..)
    simp only [List.map_cons, List.sum_cons, List.length_cons, Nat.cast_add, Nat.cast_one]
    rw [show F a + (L.map F).sum - (G a + (L.map G).sum) = (F a - G a) + ((L.map F).sum - (L.map G).sum) by ring]
    refine (abs_add_le _ _).trans ?_
    linarith

theorem ring_near {B : ℝ} {f : ℝ × ℝ → ℝ × ℝ → ℝ} (hf : StableTerm c h d B f) {r : List (ℝ × ℝ)} {g : ℝ × ℝ → ℝ × ℝ}
    (hg : ∀ v ∈ r, NearIn c h d v (g v)) : |edgeSum (closedEdges (r.map g)) f - edgeSum (closedEdges r) f| ≤ r.length * B := by
  have hlen : (closedEdges r).length = r.length := by simp [closedEdges]
  rw [closedEdges_mapped, edgeSum, edgeSum, List.map_map, ← hlen]
  exact sum_near _ _ _ fun e he => hf.near _ _ _ _ (hg _ (mem_closedEdges he).1) (hg _ (mem_closedEdges he).2)

/-- Sums over closed outlines of differences of a function of the ends. -/
theorem edgeSum_exact {l : List DirEdge} (hl : ClosedOutline l) (G : ℝ × ℝ → ℝ) : edgeSum l (fun a b => G b - G a) = 0 := by
  have h1 : (l.map fun e => G e.2 - G e.1).sum = ((l.map Prod.snd).map G).sum - ((l.map Prod.fst).map G).sum := by
    clear hl
    induction l with
    | nil => simp
    | cons a l ih => simp only [List.map_cons, List.sum_cons, ih]; ring
  rw [edgeSum, h1, (hl.map G).sum_eq, sub_self]

theorem edgeSum_lin {l : List DirEdge} (hl : ClosedOutline l) {f f0 f1 f2 f3 : ℝ × ℝ → ℝ × ℝ → ℝ} {G : ℝ × ℝ → ℝ} {k1 k2 k3 : ℝ}
    (e : ∀ a b, f a b = f0 a b + k1 * f1 a b + k2 * f2 a b + k3 * f3 a b + (G b - G a)) :
    edgeSum l f = edgeSum l f0 + k1 * edgeSum l f1 + k2 * edgeSum l f2 + k3 * edgeSum l f3 := by
  have h0 := edgeSum_exact hl G
  have h1 : edgeSum l f = edgeSum l f0 + k1 * edgeSum l f1 + k2 * edgeSum l f2 + k3 * edgeSum l f3 + edgeSum l (fun a b => G b - G a) := by
    clear hl h0
    induction l with
    | nil => simp [edgeSum]
    | cons a l ih =>
      simp only [edgeSum, List.map_cons, List.sum_cons] at ih ⊢
      rw [ih, e]; ring
  rw [h1, h0, add_zero]

variable {l : List DirEdge}

theorem areaTerm_sum (hl : ClosedOutline l) (c : ℝ × ℝ) : edgeSum l (areaTerm c) = outlineArea l := by
  rw [edgeSum_lin hl (f0 := fun a b => cross a b / 2) (f1 := fun _ _ => 0) (f2 := fun _ _ => 0) (f3 := fun _ _ => 0) (k1 := 0) (k2 := 0) (k3 := 0)
    (G := fun v => (c.2 * v.1 - c.1 * v.2) / 2) fun a b => by simp only [areaTerm, cross, Prod.fst_sub, Prod.snd_sub]; ring]
  simp [outlineArea]

theorem qxTerm_sum (hl : ClosedOutline l) (c : ℝ × ℝ) : edgeSum l (qxTerm c) = outlineQx l - c.2 * outlineArea l := by
  rw [edgeSum_lin hl (f0 := fun a b => cross a b * (a.2 + b.2) / 6) (f1 := fun a b => cross a b / 2) (f2 := fun _ _ => 0) (f3 := fun _ _ => 0)
    (k1 := - c.2) (k2 := 0) (k3 := 0) (G := fun v => v.1 * (c.2 * v.2 / 6 - c.2 ^ 2 / 3) - c.1 * (v.2 - c.2) ^ 2 / 6)
    fun a b => by simp only [qxTerm, cross, Prod.fst_sub, Prod.snd_sub]; ring]
  simp only [outlineArea, outlineQx]; ring

theorem qyTerm_sum (hl : ClosedOutline l) (c : ℝ × ℝ) : edgeSum l (qyTerm c) = outlineQy l - c.1 * outlineArea l := by
  rw [edgeSum_lin hl (f0 := fun a b => cross a b * (a.1 + b.1) / 6) (f1 := fun a b => cross a b / 2) (f2 := fun _ _ => 0) (f3 := fun _ _ => 0)
    (k1 := - c.1) (k2 := 0) (k3 := 0) (G := fun v => - (v.2 * (c.1 * v.1 / 6 - c.1 ^ 2 / 3) - c.2 * (v.1 - c.1) ^ 2 / 6))
    fun a b => by simp only [qyTerm, cross, Prod.fst_sub, Prod.snd_sub]; ring]
  simp only [outlineArea, outlineQy]; ring

theorem ixxTerm_sum (hl : ClosedOutline l) (c : ℝ × ℝ) :
    edgeSum l (ixxTerm c) = outlineIxx l - 2 * c.2 * outlineQx l + c.2 ^ 2 * outlineArea l := by
  rw [edgeSum_lin hl (f0 := fun a b => cross a b * (a.2 ^ 2 + a.2 * b.2 + b.2 ^ 2) / 12) (f1 := fun a b => cross a b * (a.2 + b.2) / 6)
    (f2 := fun a b => cross a b / 2) (f3 := fun _ _ => 0)
    (k1 := - (2 * c.2)) (k2 := c.2 ^ 2) (k3 := 0)
    (G := fun v => v.1 * (c.2 * v.2 ^ 2 / 12 - c.2 ^ 2 * v.2 / 4 + c.2 ^ 3 / 4) - c.1 * (v.2 - c.2) ^ 3 / 12)
    fun a b => by simp only [ixxTerm, cross, Prod.fst_sub, Prod.snd_sub]; ring]
  simp only [outlineArea, outlineQx, outlineIxx]; ring

theorem iyyTerm_sum (hl : ClosedOutline l) (c : ℝ × ℝ) :
    edgeSum l (iyyTerm c) = outlineIyy l - 2 * c.1 * outlineQy l + c.1 ^ 2 * outlineArea l := by
  rw [edgeSum_lin hl (f0 := fun a b => cross a b * (a.1 ^ 2 + a.1 * b.1 + b.1 ^ 2) / 12) (f1 := fun a b => cross a b * (a.1 + b.1) / 6)
    (f2 := fun a b => cross a b / 2) (f3 := fun _ _ => 0)
    (k1 := - (2 * c.1)) (k2 := c.1 ^ 2) (k3 := 0)
    (G := fun v => - (v.2 * (c.1 * v.1 ^ 2 / 12 - c.1 ^ 2 * v.1 / 4 + c.1 ^ 3 / 4) - c.2 * (v.1 - c.1) ^ 3 / 12))
    fun a b => by simp only [iyyTerm, cross, Prod.fst_sub, Prod.snd_sub]; ring]
  simp only [outlineArea, outlineQy, outlineIyy]; ring

theorem ixyTerm_sum (hl : ClosedOutline l) (c : ℝ × ℝ) :
    edgeSum l (ixyTerm c) = outlineIxy l - c.1 * outlineQx l - c.2 * outlineQy l + c.1 * c.2 * outlineArea l := by
  rw [edgeSum_lin hl (f0 := fun a b => cross a b * (a.1 * b.2 + 2 * a.1 * a.2 + 2 * b.1 * b.2 + b.1 * a.2) / 24)
    (f1 := fun a b => cross a b * (a.2 + b.2) / 6) (f2 := fun a b => cross a b * (a.1 + b.1) / 6) (f3 := fun a b => cross a b / 2)
    (k1 := - c.1) (k2 := - c.2) (k3 := c.1 * c.2)
    (G := fun v => c.2 * v.1 ^ 2 * v.2 / 12 - c.2 ^ 2 * v.1 ^ 2 / 8 - c.1 * v.1 * v.2 ^ 2 / 12 + c.1 * c.2 ^ 2 * v.1 / 4
      + c.1 ^ 2 * (v.2 - c.2) ^ 2 / 8)
    fun a b => by simp only [ixyTerm, cross, Prod.fst_sub, Prod.snd_sub]; ring]
  simp only [outlineArea, outlineQx, outlineQy, outlineIxy]; ring

theorem sign_near {x x' : ℝ} (hx : |x' - x| < |x|) : SignType.sign x' = SignType.sign x := by
  rcases lt_trichotomy x 0 with h0 | h0 | h0
  · rw [abs_of_neg h0, abs_lt] at hx
    rw [sign_neg h0, sign_neg (by linarith [hx.2])]
  · rw [h0, abs_zero] at hx
    exact absurd (abs_nonneg (x' - 0)) (not_le.2 hx)
  · rw [abs_of_pos h0, abs_lt] at hx
    rw [sign_pos h0, sign_pos (by linarith [hx.1])]

theorem sign_le (x y : ℝ) : |(SignType.sign x : ℝ) * y| ≤ |y| := by
  rcases lt_trichotomy x 0 with h0 | h0 | h0
  · rw [sign_neg h0]; simp
  · rw [h0]; simp
  · rw [sign_pos h0]; simp

theorem edgeSum_poly {f : ℝ × ℝ → ℝ × ℝ → ℝ} (hf : ∀ a b, f b a = - f a b) (p : Poly) :
    edgeSum (polyEdges p) f = (SignType.sign (ringArea2 p.exterior) : ℝ) * edgeSum (closedEdges p.exterior) f
      - (p.interiors.map fun r => (SignType.sign (ringArea2 r) : ℝ) * edgeSum (closedEdges r) f).sum := by
  rw [polyEdges, edgeSum_append, edgeSum_flatMap, edgeSum_orient _ _ hf, sub_eq_add_neg, ← sum_map_neg']
  congr 2
  exact List.map_congr_left fun r _ => by rw [edgeSum_orient _ _ hf, sign_cast_neg]; ring

theorem sum_near' {α : Type*} (L : List α) (F G : α → ℝ) (N : α → ℕ) {B : ℝ} (hB : ∀ a ∈ L, |F a - G a| ≤ N a * B) :
    |(L.map F).sum - (L.map G).sum| ≤ ((L.map N).sum : ℕ) * B := by
  induction L with
  | nil => simp
  | cons a L ih =>
    have h1 := ih fun b hb => hB b (List.mem_cons_of_mem _ hb)
    have h2 := hB a (List.mem_cons_self ..)
    simp only [List.map_cons, List.sum_cons, Nat.cast_add]
    rw [show F a + (L.map F).sum - (G a + (L.map G).sum) = (F a - G a) + ((L.map F).sum - (L.map G).sum) by ring]
    refine (abs_add_le _ _).trans ?_
    linarith

theorem poly_near {B : ℝ} {f : ℝ × ℝ → ℝ × ℝ → ℝ} (hf : StableTerm c h d B f) {p : Poly} {g : ℝ × ℝ → ℝ × ℝ}
    (hg : ∀ r ∈ rings p, ∀ v ∈ r, NearIn c h d v (g v))
    (hs : ∀ r ∈ rings p, SignType.sign (ringArea2 (r.map g)) = SignType.sign (ringArea2 r)) :
    |edgeSum (polyEdges (p.map g)) f - edgeSum (polyEdges p) f| ≤ vertexCount p * B := by
  have hr : ∀ r ∈ rings p, |(SignType.sign (ringArea2 (r.map g)) : ℝ) * edgeSum (closedEdges (r.map g)) f
      - (SignType.sign (ringArea2 r) : ℝ) * edgeSum (closedEdges r) f| ≤ r.length * B := by
    intro r hr
    rw [hs r hr, ← mul_sub]
    exact (sign_le _ _).trans (ring_near hf (hg r hr))
  have h1 := hr p.exterior (List.mem_cons_self ..)
  have h2 := sum_near' p.interiors (fun r => (SignType.sign (ringArea2 (r.map g)) : ℝ) * edgeSum (closedEdges (r.map g)) f)
    (fun r => (SignType.sign (ringArea2 r) : ℝ) * edgeSum (closedEdges r) f) List.length fun r hm => hr r (List.mem_cons_of_mem _ hm)
  rw [edgeSum_poly hf.anti, edgeSum_poly hf.anti]
  simp only [Poly.map, List.map_map, Function.comp_def]
  rw [vertexCount, rings, List.map_cons, List.sum_cons, Nat.cast_add, add_mul, sub_sub_sub_comm]
  exact (abs_sub _ _).trans (add_le_add h1 h2)

/-! ### Rounding -/

theorem nearIn_round {tol : ℕ} {v : ℝ × ℝ} (hv : |v.1 - c.1| ≤ h - 1 / 2 / 10 ^ tol ∧ |v.2 - c.2| ≤ h - 1 / 2 / 10 ^ tol) :
    NearIn c h (1 / 2 / 10 ^ tol) v (roundPt tol v) := by
  have hp := pow10_pos tol
  have hd : (0 : ℝ) < 1 / 2 / 10 ^ tol := by positivity
  have h1 : |roundTo tol v.1 - v.1| ≤ 1 / 2 / 10 ^ tol := roundTo_near tol v.1
  have h2 : |roundTo tol v.2 - v.2| ≤ 1 / 2 / 10 ^ tol := roundTo_near tol v.2
  refine ⟨by linarith [hv.1], by linarith [hv.2], ?_, ?_, h1, h2⟩
  · have := abs_add_le (roundTo tol v.1 - v.1) (v.1 - c.1)
    rw [sub_add_sub_cancel] at this
    exact this.trans (by linarith [hv.1])
  · have := abs_add_le (roundTo tol v.2 - v.2) (v.2 - c.2)
    rw [sub_add_sub_cancel] at this
    exact this.trans (by linarith [hv.2])

theorem square_nonneg {p : Poly} {tol : ℕ} (hsq : InSquare c (h - 1 / 2 / 10 ^ tol) p) (hv : p.exterior ≠ []) : 0 ≤ h := by
  obtain ⟨v, hv⟩ := List.exists_mem_of_ne_nil _ hv
  have := (hsq p.exterior (List.mem_cons_self ..) v hv).1
  have h1 := abs_nonneg (v.1 - c.1)
  have hp := pow10_pos tol
  have hd : (0 : ℝ) < 1 / 2 / 10 ^ tol := by positivity
  linarith

theorem ring_round_area {r : List (ℝ × ℝ)} {tol : ℕ} (hh : 0 ≤ h) (hr : ∀ v ∈ r, NearIn c h (1 / 2 / 10 ^ tol) v (roundPt tol v)) :
    |outlineArea (closedEdges (r.map (roundPt tol))) - outlineArea (closedEdges r)| ≤ r.length * h / 10 ^ tol := by
  have hp := pow10_pos tol
  have := ring_near (areaTerm_stable (c := c) hh (by positivity)) hr
  rw [areaTerm_sum (closed_ring _), areaTerm_sum (closed_ring _)] at this
  refine this.trans (le_of_eq ?_)
  field_simp

theorem round_sign {r : List (ℝ × ℝ)} {tol : ℕ} (hh : 0 ≤ h) (hr : ∀ v ∈ r, NearIn c h (1 / 2 / 10 ^ tol) v (roundPt tol v))
    (hb : r.length * h / 10 ^ tol < |outlineArea (closedEdges r)|) :
    SignType.sign (ringArea2 (r.map (roundPt tol))) = SignType.sign (ringArea2 r) := by
  apply sign_near
  rw [ringArea2_outline, ringArea2_outline, ← mul_sub, abs_mul, abs_mul]
  exact mul_lt_mul_of_pos_left ((ring_round_area hh hr).trans_lt hb) (by norm_num)

theorem outlineArea_zero (r : List (ℝ × ℝ)) (h0 : ∀ q ∈ r, q = (0, 0)) : outlineArea (closedEdges r) = 0 := by
  rw [outlineArea, edgeSum]
  apply List.sum_eq_zero
  intro x hx
  obtain ⟨e, he, rfl⟩ := List.mem_map.1 hx
  rw [h0 _ (mem_closedEdges he).1, h0 _ (mem_closedEdges he).2]
  simp [cross]

theorem roundPoly_notTiny {p : Poly} {tol : ℕ} (hh : 0 ≤ h) (hsq : InSquare c (h - 1 / 2 / 10 ^ tol) p) (hb : NotTiny tol h p) :
    roundPoly tol p = p.map (roundPt tol) := by
  rw [roundPoly, if_neg]
  intro h0
  have hm : p.exterior ∈ rings p := List.mem_cons_self ..
  have h1 := ring_round_area hh fun v hv => nearIn_round (hsq _ hm v hv)
  rw [outlineArea_zero _ h0, zero_sub, abs_neg] at h1
  exact absurd (hb _ hm) (not_lt.2 h1)

/-- The edge sums of a polygon and of the rounded polygon. -/
theorem round_edges_near {B : ℝ} {f : ℝ × ℝ → ℝ × ℝ → ℝ} {p : Poly} {tol : ℕ} (hh : 0 ≤ h) (hf : StableTerm c h (1 / 2 / 10 ^ tol) B f)
    (hsq : InSquare c (h - 1 / 2 / 10 ^ tol) p) (hb : NotTiny tol h p) :
    |edgeSum (polyEdges (roundPoly tol p)) f - edgeSum (polyEdges p) f| ≤ vertexCount p * B := by
  rw [roundPoly_notTiny hh hsq hb]
  have hn : ∀ r ∈ rings p, ∀ v ∈ r, NearIn c h (1 / 2 / 10 ^ tol) v (roundPt tol v) := fun r hr v hv => nearIn_round (hsq r hr v hv)
  exact poly_near hf hn fun r hr => round_sign hh (hn r hr) (hb r hr)

/-! ### Integrals over a polygon -/

theorem measurable_crosses (e : DirEdge) : Measurable (crosses e) := by
  classical
  have hs : Measurable fun p : ℝ × ℝ => signedArea2 e.1 e.2 p := by
    simp only [signedArea2]
    fun_prop
  unfold crosses
  refine Measurable.sub (Measurable.ite ?_ measurable_const measurable_const) (Measurable.ite ?_ measurable_const measurable_const)
  · exact (measurableSet_le measurable_const measurable_snd).inter
      ((measurableSet_lt measurable_snd measurable_const).inter (measurableSet_lt measurable_const hs))
  · exact (measurableSet_le measurable_const measurable_snd).inter
      ((measurableSet_lt measurable_snd measurable_const).inter (measurableSet_lt hs measurable_const))

theorem measurable_winding (l : List DirEdge) : Measurable (winding l) := by
  induction l with
  | nil => exact measurable_const
  | cons e l ih =>
    have : winding (e :: l) = fun p => crosses e p + winding l p := by
      funext p
      simp [winding]
    rw [this]
    exact (measurable_crosses e).add ih

theorem measurable_polyRegion (p : Poly) : MeasurableSet (polyRegion p) := by
  have h1 : ∀ r : List (ℝ × ℝ), MeasurableSet {q | winding (closedEdges r) q = 0} := fun r =>
    measurable_winding _ (measurableSet_singleton 0)
  have h2 : MeasurableSet {q | ∀ r ∈ p.interiors, winding (closedEdges r) q = 0} := by
    have : {q | ∀ r ∈ p.interiors, winding (closedEdges r) q = 0} = ⋂ r ∈ p.interiors.toFinset, {q | winding (closedEdges r) q = 0} := by
      ext q
      simp
    rw [this]
    exact Finset.measurableSet_biInter _ fun r _ => h1 r
  exact (h1 _).compl.inter h2

theorem poly_integral {p : Poly} (hv : ValidPoly p) (f : ℝ × ℝ → ℝ) :
    ∫ q in polyRegion p, f q = ∫ q, (winding (polyEdges p) q : ℝ) * f q := by
  classical
  rw [← integral_indicator (measurable_polyRegion p)]
  refine integral_congr_ae ?_
  filter_upwards [winding_poly hv] with q hq
  rw [hq, indicator_apply]
  split_ifs <;> simp

theorem integral_lin {f0 f1 f2 f3 : ℝ × ℝ → ℝ} (h0 : Integrable f0) (h1 : Integrable f1) (h2 : Integrable f2) (h3 : Integrable f3)
    (k1 k2 k3 : ℝ) : ∫ q, (f0 q + k1 * f1 q + k2 * f2 q + k3 * f3 q) = (∫ q, f0 q) + k1 * (∫ q, f1 q) + k2 * (∫ q, f2 q) + k3 * ∫ q, f3 q := by
  refine (integral_add ((h0.add (h1.const_mul k1)).add (h2.const_mul k2)) (h3.const_mul k3)).trans ?_
  rw [integral_const_mul]
  congr 1
  refine (integral_add (h0.add (h1.const_mul k1)) (h2.const_mul k2)).trans ?_
  rw [integral_const_mul]
  congr 1
  refine (integral_add h0 (h1.const_mul k1)).trans ?_
  rw [integral_const_mul]

/-- Moments of a polygon about a point. -/
theorem poly_moments {p : Poly} (hv : ValidPoly p) (c : ℝ × ℝ) :
    ∫ _ in polyRegion p, (1 : ℝ) = edgeSum (polyEdges p) (areaTerm c) ∧
    ∫ q in polyRegion p, (q.2 - c.2) = edgeSum (polyEdges p) (qxTerm c) ∧
    ∫ q in polyRegion p, (q.1 - c.1) = edgeSum (polyEdges p) (qyTerm c) ∧
    ∫ q in polyRegion p, (q.2 - c.2) ^ 2 = edgeSum (polyEdges p) (ixxTerm c) ∧
    ∫ q in polyRegion p, (q.1 - c.1) ^ 2 = edgeSum (polyEdges p) (iyyTerm c) ∧
    ∫ q in polyRegion p, (q.1 - c.1) * (q.2 - c.2) = edgeSum (polyEdges p) (ixyTerm c) := by
  have hc := closed_poly p
  obtain ⟨i0, i1, i2, i3, i4, i5, e0, e1, e2, e3, e4, e5⟩ := winding_int hc
  simp only [poly_integral hv]
  rw [areaTerm_sum hc, qxTerm_sum hc, qyTerm_sum hc, ixxTerm_sum hc, iyyTerm_sum hc, ixyTerm_sum hc]
  refine ⟨e0, ?_, ?_, ?_, ?_, ?_⟩
  · rw [← e1, ← e0, ← integral_const_mul, ← integral_sub i1 (i0.const_mul _)]
    exact integral_congr_ae (.of_forall fun q => by ring)
  · rw [← e2, ← e0, ← integral_const_mul, ← integral_sub i2 (i0.const_mul _)]
    exact integral_congr_ae (.of_forall fun q => by ring)
  · refine (integral_congr_ae (.of_forall fun q => ?_)).trans ((integral_lin i3 i1 i0 i0 (-(2 * c.2)) (c.2 ^ 2) 0).trans ?_)
    · ring
    · rw [e3, e1, e0]; ring
  · refine (integral_congr_ae (.of_forall fun q => ?_)).trans ((integral_lin i4 i2 i0 i0 (-(2 * c.1)) (c.1 ^ 2) 0).trans ?_)
    · ring
    · rw [e4, e2, e0]; ring
  · refine (integral_congr_ae (.of_forall fun q => ?_)).trans ((integral_lin i5 i1 i2 i0 (-c.1) (-c.2) (c.1 * c.2)).trans ?_)
    · ring
    · rw [e5, e1, e2, e0]; ring

end SP
