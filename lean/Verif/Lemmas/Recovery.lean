import Verif.Spec.Recovery
import Verif.Lemmas.Slopes
import Verif.Model.Recovery

/-!
# Lemmas about recovery points
-/

namespace SP

open Spec

theorem on_vertex {L : List Pt} {q : Pt} {a b : ℝ} (h : (a, b) ∈ L) (h1 : q.1 = a) (h2 : q.2 = b) : OnOutline L q := by
  have e : q = (a, b) := Prod.ext h1 h2
  obtain ⟨i, hi, hq⟩ := List.mem_iff_getElem.1 h
  have hl : i < (L.zip (L.rotate 1)).length := by simpa using hi
  have hm := List.getElem_mem hl
  rw [List.getElem_zip, hq] at hm
  exact ⟨(a, b), _, hm, by rw [e]; exact left_mem_segment ℝ _ _⟩

theorem on_middle {L : List Pt} {P Q q : Pt} (h : Edge L P Q) (h1 : q.1 = (P.1 + Q.1) / 2) (h2 : q.2 = (P.2 + Q.2) / 2) :
    OnOutline L q := by
  refine ⟨P, Q, h, 1 / 2, 1 / 2, by norm_num, by norm_num, by norm_num, Prod.ext ?_ ?_⟩
  · simp only [Prod.fst_add, Prod.smul_fst, smul_eq_mul, h1]; ring
  · simp only [Prod.snd_add, Prod.smul_snd, smul_eq_mul, h2]; ring

theorem recovers_of {L : List Pt} {v a b c d : Pt} (ha : OnOutline L (a.1 + v.1, a.2 + v.2))
    (hb : OnOutline L (b.1 + v.1, b.2 + v.2)) (hc : OnOutline L (c.1 + v.1, c.2 + v.2))
    (hd : OnOutline L (d.1 + v.1, d.2 + v.2)) : Recovers L v [a, b, c, d] := by
  refine ⟨rfl, ?_⟩
  simp only [List.forall_mem_cons]
  exact ⟨ha, hb, hc, hd, by simp⟩

theorem outside_below {g : Geometry} {x0 x1 y1 A : ℝ} {P : Prop} {p : Pt} (h : Fits g (x0, x1, 0, y1) A P)
    (hp : p.2 < -(1 / 10 ^ 12)) : Outside g p := by
  obtain ⟨⟨-, -, -, h3, -⟩, -⟩ := h
  rw [HalfUnit, abs_le] at h3
  right; right; left
  have := h3.1
  norm_num at this hp ⊢
  linarith

/-- The outer outline of a section with holes. -/
theorem drawn_cut (ops : GeomOps) {L : List Pt} {Ms : List (List Pt)} {m : Material} {g : Geometry}
    (hcut : Cuts ops L Ms) (hg : hollow ops L Ms m = .ok g) (hs : Spread 12 L) : Drawn g L := by
  rw [hollow, hcut] at hg
  have hr : (mkGeometry ops ⟨L, Ms⟩ m none 12).poly = (⟨L, Ms⟩ : Poly).map (roundPt 12) :=
    roundPoly_of_spread (p := ⟨L, Ms⟩) hs
  rw [← Except.ok.inj hg, Drawn, hr]
  simp only [Poly.map]
  rw [List.forall₂_map_left_iff, List.forall₂_same]
  exact fun p _ => ⟨roundTo_near 12 p.1, roundTo_near 12 p.2⟩

theorem spread_y {L : List Pt} {p q : Pt} (hp : p ∈ L) (hq : q ∈ L) (h : 3 / 10 ^ 12 < q.2 - p.2) : Spread 12 L :=
  ⟨p, hp, q, hq, by nlinarith [sq_nonneg (p.1 - q.1), (by norm_num : (0 : ℝ) < 3 / 10 ^ 12)]⟩

theorem spread_x {L : List Pt} {p q : Pt} (hp : p ∈ L) (hq : q ∈ L) (h : 3 / 10 ^ 12 < q.1 - p.1) : Spread 12 L :=
  ⟨p, hp, q, hq, by nlinarith [sq_nonneg (p.2 - q.2), (by norm_num : (0 : ℝ) < 3 / 10 ^ 12)]⟩

end SP
