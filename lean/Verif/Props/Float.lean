import Verif.Proofs.Float
import Mathlib.Algebra.Order.Ring.Int
/-!
# C06, C07: tolerant comparison and Pareto comparison
-/

namespace Gapp.Props
open Gapp.Model Gapp.Spec Flt
variable {K : Type} [CommRing K] [LinearOrder K] [IsStrictOrderedRing K]

/-- **C06.** The comparison functions mean what they should: `floatIsLess` is "less by more than the
tolerance", and exactly one of `less`, `equal`, `greater` holds for any two values, which is also the
result of `floatCompare`; the `…Eq` variants are the disjunctions. -/
theorem C06_float_comparison_trichotomy {t : Tol K} (ht : t.Valid) (a b : Flt K) :
    (floatIsLess t a b = true ↔ DefinitelyLess t a b) ∧
    (floatIsGreater t a b = true ↔ DefinitelyLess t b a) ∧
    (floatIsEqual t a b = true ↔ ¬ DefinitelyLess t a b ∧ ¬ DefinitelyLess t b a) ∧
    ¬ (DefinitelyLess t a b ∧ DefinitelyLess t b a) ∧
    (floatCompare t a b = .lt ↔ DefinitelyLess t a b) ∧
    (floatCompare t a b = .gt ↔ DefinitelyLess t b a) ∧
    (floatIsLessEq t a b = true ↔ floatIsLess t a b = true ∨ floatIsEqual t a b = true) ∧
    (floatIsGreaterEq t a b = true ↔ floatIsGreater t a b = true ∨ floatIsEqual t a b = true) := by
  have h1 := isLess_iff ht a b
  have h2 := isLess_iff ht b a
  have h3 : ¬ (DefinitelyLess t a b ∧ DefinitelyLess t b a) := fun h =>
    absurd (definitelyLess_lt ht h.1) (not_lt_of_gt (definitelyLess_lt ht h.2))
  have h4 := floatIsEqual_iff t a b
  refine ⟨h1, by rw [isGreater_eq, h2], ?_, h3, ?_, ?_, ?_, ?_⟩
  · rw [h4, ← h1, ← h2]; simp
  · rw [floatCompare_lt_iff t ht.abs_nonneg, h1]
  · rw [floatCompare_gt_iff, h2]
  · rw [floatIsLessEq, isGreater_eq, h4]
    rw [← h1, ← h2] at h3
    revert h3; cases floatIsLess t a b <;> cases floatIsLess t b a <;> simp
  · rw [floatIsGreaterEq, isGreater_eq, h4]
    rw [← h1, ← h2] at h3
    revert h3; cases floatIsLess t a b <;> cases floatIsLess t b a <;> simp

/-- **C06 (laws).** Tolerant equality is reflexive and symmetric; `less` implies the exact order and is
transitive for every tolerance; for a relative tolerance of at most 1 it is monotone. -/
theorem C06_float_comparison_laws {t : Tol K} (ht : t.Valid) (a b c a' b' : Flt K) :
    floatIsEqual t a a = true ∧ floatIsEqual t a b = floatIsEqual t b a ∧
    (floatIsLess t a b = true → a < b) ∧
    (floatIsLess t a b = true → floatIsLess t b c = true → floatIsLess t a c = true) ∧
    (t.rel ≤ 1 → floatIsLess t a b = true → a' ≤ a → b ≤ b' → floatIsLess t a' b' = true) := by
  refine ⟨?_, ?_, fun h => definitelyLess_lt ht ((isLess_iff ht _ _).1 h), fun h1 h2 => ?_,
    fun hr h1 h2 h3 => ?_⟩
  · rw [floatIsEqual_iff, and_self, ← Bool.not_eq_true, isLess_iff ht]
    exact fun h => lt_irrefl _ (definitelyLess_lt ht h)
  · rw [Bool.eq_iff_iff, floatIsEqual_iff, floatIsEqual_iff, and_comm]
  · rw [isLess_iff ht] at *; exact definitelyLess_trans ht h1 h2
  · rw [isLess_iff ht] at *; exact definitelyLess_mono ht hr h1 h2 h3

/-- **C06 (exact comparison).** With zero tolerances the comparisons are `<`, `=`, `>`. -/
theorem C06_zero_tolerance_is_exact (a b : Flt K) :
    floatIsLess (⟨0, 0⟩ : Tol K) a b = decide (a < b) ∧
    floatIsEqual (⟨0, 0⟩ : Tol K) a b = decide (a = b) ∧
    floatIsGreater (⟨0, 0⟩ : Tol K) a b = decide (a > b) := by
  refine ⟨isLess_zero a b, isEqual_zero a b, ?_⟩
  rw [isGreater_eq, isLess_zero]

/-- Non-vacuity: a valid non-zero tolerance, and values on both sides of it. -/
example : (⟨2, 0⟩ : Tol ℤ).Valid ∧ floatIsLess (⟨2, 0⟩ : Tol ℤ) (fin 1) (fin 4) = true ∧
    floatIsEqual (⟨2, 0⟩ : Tol ℤ) (fin 1) (fin 3) = true ∧
    floatIsLess (⟨2, 0⟩ : Tol ℤ) ninf (fin 4) = true :=
  ⟨⟨by decide, by decide⟩, by decide, by decide, by decide⟩

/-- **C07 (three-way comparison).** For every tolerance, `paretoCompare` is -1, 1 or 0 according to whether
its second argument dominates the first, the first dominates the second, or neither; dominance is
irreflexive and asymmetric. -/
theorem C07_pareto_compare {t : Tol K} (ht : t.Valid) (a b : FVec K) :
    (paretoCompare t a b = -1 ↔ Dominates t b a) ∧ (paretoCompare t a b = 1 ↔ Dominates t a b) ∧
    (paretoCompare t a b = 0 ↔ ¬ Dominates t a b ∧ ¬ Dominates t b a) ∧
    ¬ Dominates t a a ∧ ¬ (Dominates t a b ∧ Dominates t b a) := by
  obtain ⟨h1, h2, h3⟩ := paretoCompare_spec ht a b
  refine ⟨?_, ?_, ?_, dominates_irrefl ht a, fun h => dominates_asymm h.1 h.2⟩
  · rw [← h1]; rcases h3 with h | h | h <;> rw [h] <;> decide
  · rw [← h2]; rcases h3 with h | h | h <;> rw [h] <;> decide
  · rw [← h1, ← h2]; rcases h3 with h | h | h <;> rw [h] <;> decide

/-- **C07 (partial: agreement of the two comparisons).** `paretoCompareLess(a, b)` is "b dominates a", i.e.
agrees with `paretoCompare`, if the tolerance is purely absolute or if the values of `a` are not negative.
Missing: negative values under a relative tolerance, where it is false (`C07_less_disagrees`). -/
theorem C07_less_is_dominance_partial {t : Tol K} (ht : t.Valid) (a b : FVec K)
    (hs : t.rel = 0 ∨ ∀ x ∈ a, fin 0 ≤ x) :
    paretoCompareLess t a b = true ↔ Dominates t b a :=
  ⟨less_imp_dominates ht hs, dominates_imp_less ht⟩

/-- One direction of the agreement holds without any restriction. -/
theorem C07_dominance_implies_less {t : Tol K} (ht : t.Valid) (a b : FVec K) (h : Dominates t b a) :
    paretoCompareLess t a b = true := dominates_imp_less ht h

/-- **C07 (violated).** Under a relative tolerance `paretoCompareLess` and `paretoCompare` disagree on some
vectors of equal length, and two vectors can even each be "less" than the other. (Scaled to integers:
relative tolerance 1 with values −10, −4; the same happens for smaller tolerances at other values.) -/
theorem C07_less_disagrees :
    ∃ (t : Tol ℤ) (a b : FVec ℤ), t.Valid ∧ a.length = b.length ∧
      paretoCompare t a b = 0 ∧ paretoCompareLess t a b = true ∧ paretoCompareLess t b a = true :=
  ⟨⟨0, 1⟩, [fin (-10), fin (-4)], [fin (-4), fin (-10)], ⟨by decide, by decide⟩, rfl, by decide, by decide,
    by decide⟩

/-- **C07 (exact comparison).** With zero tolerances `paretoCompareLess(a, b)` is exact Pareto dominance of `b`
over `a`, `paretoCompare` agrees with it, and it is a strict partial order on vectors of equal length. -/
theorem C07_exact_dominance_is_strict_partial_order (a b c : FVec K)
    (hab : a.length = b.length) (hbc : b.length = c.length) :
    (paretoCompareLess (⟨0, 0⟩ : Tol K) a b = true ↔ ExactDominates b a) ∧
    (paretoCompare (⟨0, 0⟩ : Tol K) a b = -1 ↔ ExactDominates b a) ∧
    ¬ ExactDominates a a ∧
    (ExactDominates b a → ExactDominates c b → ExactDominates c a) := by
  refine ⟨paretoCompareLess_zero a b, ?_, exactDominates_irrefl a, exactDominates_trans hab hbc⟩
  rw [(C07_pareto_compare ⟨le_rfl, le_rfl⟩ a b).1, dominates_zero]

example : ExactDominates [fin (3 : ℤ), fin 2] [fin 1, fin 2] ∧
    paretoCompareLess (⟨0, 0⟩ : Tol ℤ) [fin 1, fin 2] [fin 3, fin 2] = true := by
  refine ⟨(paretoCompareLess_zero _ _).1 ?_, ?_⟩ <;> decide

/-- **C07 (violated).** With a non-zero absolute tolerance dominance is not transitive, and there are even
three vectors each of which dominates the next one in a circle. -/
theorem C07_tolerant_dominance_not_transitive :
    ∃ (t : Tol ℤ) (a b c : FVec ℤ), t.Valid ∧ a.length = 3 ∧ b.length = 3 ∧ c.length = 3 ∧
      paretoCompareLess t a b = true ∧ paretoCompareLess t b c = true ∧ paretoCompareLess t c a = true :=
  ⟨⟨1, 0⟩, [fin 0, fin 1, fin 2], [fin 2, fin 0, fin 1], [fin 1, fin 2, fin 0],
    ⟨by decide, by decide⟩, rfl, rfl, rfl, by decide, by decide, by decide⟩

end Gapp.Props
