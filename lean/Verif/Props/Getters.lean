import Verif.Spec.Getters
import Verif.Lemmas.Store
import Verif.Props.Example

/-!
# C32 getters, C14 reference modulus
-/

namespace SP

open Classical Spec

theorem isComposite_iff {ms : List MatObj} (h : ms ≠ []) :
    isComposite ms ↔ ∃ m ∈ ms, m.val ≠ defaultMaterial := by
  unfold isComposite
  constructor
  · intro hc
    by_contra hn
    push Not at hn
    exact hc ⟨h, hn⟩
  · rintro ⟨m, hm, hne⟩ ⟨_, hall⟩
    exact hne (hall m hm)

/-- Values found in the store (zero where there is none). -/
noncomputable def stored {n : ℕ} (p : Store n) (f : Field) : ℝ := (p.val f).getD 0

set_option maxHeartbeats 4000000 in
theorem callGetter_eq {n : ℕ} (g : Getter) {ms : List MatObj} (hm : ms ≠ []) (p : Store n)
    (e : ERef) :
    callGetter g ms p e =
      if kindOk ms (getterKind g) ∧ ∀ f ∈ getterNeeds g, (p.val f).isSome then
        .ok (getterValue g (stored p) e.value)
      else .error .runtimeError := by
  have hc := isComposite_iff hm
  cases g <;>
    simp only [callGetter, getArea, getPerimeter, getMass, getEa, getQ, getEq, getIg, getEig, getC, getIc, getEic, getZ, getEz, getMy, getRc, getIp, getEip, getPhi, getZp, getEzp, getMyP, getRp, getNuEff, getEEff, getGEff, getJ, getEj, getSc, getScP, getScT, getGamma, getEgamma, getAs, getEas, getAsP, getEasP, getBeta, getBetaP, getPc, getPcP, getS, getMp, getSp, getMpP, getSf, getSfP,
      getterKind, getterNeeds, kindOk, ← hc, List.forall_mem_cons, List.not_mem_nil, false_imp_iff,
      implies_true, and_true, true_and, ite_not] <;>
    (try by_cases hcomp : isComposite ms) <;>
    (try simp only [hcomp, if_true, if_false, not_true_eq_false, not_false_eq_true, true_and,
      false_and]) <;>
    (repeat' split) <;>
    simp_all [Except.map, list1, list2, list3, list4, getterValue, getterNeeds, getterScaled, stored,
      globalCoordinate, add_comm] <;>
    first
      | grind [Option.isSome_iff_exists]
      | (rename_i hx hs
         obtain ⟨h1, h2, h3, h4, h5⟩ := hs
         obtain ⟨v1, e1⟩ := Option.isSome_iff_exists.1 h1
         obtain ⟨v2, e2⟩ := Option.isSome_iff_exists.1 h2
         obtain ⟨v3, e3⟩ := Option.isSome_iff_exists.1 h3
         obtain ⟨v4, e4⟩ := Option.isSome_iff_exists.1 h4
         obtain ⟨v5, e5⟩ := Option.isSome_iff_exists.1 h5
         exact hx v1 v2 v3 v4 v5 e1 e2 e3 e4 e5)

theorem getterValue_congr (g : Getter) {v w : Field → ℝ} (e : ℝ)
    (h : ∀ f ∈ getterNeeds g, v f = w f) : getterValue g v e = getterValue g w e := by
  cases g <;> simp_all [getterNeeds, getterValue]

/-- **C32.**  A getter returns a value exactly if the section is of the kind the getter is documented
for and all quantities it reports have been computed; the value is then the documented one, computed
from the stored values.  In all other cases it raises `RuntimeError`. -/
theorem C32_getters {n : ℕ} (g : Getter) {ms : List MatObj} (hm : ms ≠ []) (p : Store n) (e : ERef) :
    (∀ r, callGetter g ms p e = .ok r ↔
      kindOk ms (getterKind g) ∧
        ∃ v : Field → ℝ, (∀ f ∈ getterNeeds g, p.val f = some (v f)) ∧ r = getterValue g v e.value) ∧
    (∀ err, callGetter g ms p e = .error err → err = .runtimeError) := by
  rw [callGetter_eq g hm]
  constructor
  · intro r
    by_cases hk : kindOk ms (getterKind g) ∧ ∀ f ∈ getterNeeds g, (p.val f).isSome
    · rw [if_pos hk]
      have key : ∀ f ∈ getterNeeds g, p.val f = some (stored p f) := by
        intro f hf
        obtain ⟨a, ha⟩ := Option.isSome_iff_exists.1 (hk.2 f hf)
        simp [stored, ha]
      constructor
      · intro h
        exact ⟨hk.1, stored p, key, (Except.ok.inj h).symm⟩
      · rintro ⟨_, v, hv, rfl⟩
        congr 1
        apply getterValue_congr
        intro f hf
        simp [stored, hv f hf]
    · rw [if_neg hk]
      constructor
      · intro h; cases h
      · rintro ⟨h1, v, hv, _⟩
        exact absurd ⟨h1, fun f hf => by rw [hv f hf]; rfl⟩ hk
  · intro err h
    split at h
    · cases h
    · exact (Except.error.inj h).symm

/-- The hypotheses are met, and both outcomes occur: on a store that holds an area only. -/
example : callGetter (n := 3) .getArea [⟨0, defaultMaterial⟩]
      ⟨fun f => if f = .area then some 7 else none, none, none, none⟩ (.num 1) = .ok [7] ∧
    callGetter (n := 3) .getQ [⟨0, defaultMaterial⟩]
      ⟨fun f => if f = .area then some 7 else none, none, none, none⟩ (.num 1)
        = .error .runtimeError := by
  constructor <;> rw [callGetter_eq _ (by simp)] <;>
    simp [getterKind, getterNeeds, kindOk, getterValue, getterScaled, stored]

end SP
