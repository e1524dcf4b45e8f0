import Verif.Spec.BoundedValue
import Verif.Proofs.DoubleCdf
/-!
# C63: types of values within bounds

A `Probability` is a number in `[0, 1]`, a `Positive` is positive, and so on: the constructors accept these numbers and no others. But all of them accept a NaN.
-/

namespace Gapp.Props
open Gapp.Model Gapp.Spec

/-- The intervals accept the numbers between the bounds. -/
theorem contains_fin (l r q : ℚ) (li ri : Bool) :
    (Interval.mk (.fin l) (.fin r) li ri).contains dblComparison (.fin q) = true ↔ (if li then l ≤ q else l < q) ∧ (if ri then q ≤ r else q < r) := by
  unfold Interval.contains dblComparison
  simp only [Dbl.lt, Dbl.le]
  cases li <;> cases ri <;> simp [not_lt, lt_iff_le_and_ne] <;> grind

theorem contains_inf (l r : ℚ) (li ri : Bool) :
    (Interval.mk (.fin l) (.fin r) li ri).contains dblComparison .pinf = false ∧ (Interval.mk (.fin l) (.fin r) li ri).contains dblComparison .ninf = false := by
  unfold Interval.contains dblComparison
  constructor <;> simp [Dbl.lt]

theorem contains_nan (l r : ℚ) (li ri : Bool) : (Interval.mk (.fin l) (.fin r) li ri).contains dblComparison .nan = true := by
  unfold Interval.contains dblComparison
  simp [Dbl.lt, Dbl.le]

/-- The accepted numbers of an interval. -/
theorem accepts_numbers (l r : ℚ) (li ri : Bool) (p : ℚ → Prop) (h : ∀ q, IsDouble q → (((if li then l ≤ q else l < q) ∧ (if ri then q ≤ r else q < r)) ↔ p q)) :
    AcceptsExactlyNumbers ⟨.fin l, .fin r, li, ri⟩ p := by
  intro x hx hn
  unfold boundedValue
  cases x with
  | nan => exact absurd rfl hn
  | ninf =>
    refine ⟨fun ⟨q, hq, _⟩ => (by cases hq), fun _ => ?_⟩
    rw [(contains_inf l r li ri).2]; rfl
  | pinf =>
    refine ⟨fun ⟨q, hq, _⟩ => (by cases hq), fun _ => ?_⟩
    rw [(contains_inf l r li ri).1]; rfl
  | fin q =>
    have hc := (contains_fin l r q li ri).trans (h q hx)
    constructor
    · rintro ⟨q', hq, hp⟩
      cases hq
      rw [if_pos (hc.mpr hp)]
    · intro hno
      rw [if_neg (fun hh => hno ⟨q, rfl, hc.mp hh⟩)]

/-- C63, the full statement is `AcceptsExactly`. A `Probability` or a `Normalized` is a number from 0 to 1, all these are accepted, and no other number or infinity. For NaN, see
`C63_nan`. -/
theorem C63_probability_partial : AcceptsExactlyNumbers probabilityInterval (fun q => 0 ≤ q ∧ q ≤ 1) := accepts_numbers 0 1 true true _ (fun _ _ => Iff.rfl)

/-- C63: the same for `NonNegative`. -/
theorem C63_nonnegative_partial : AcceptsExactlyNumbers nonNegativeInterval (fun q => 0 ≤ q) :=
  accepts_numbers 0 maxDouble true true _ (fun _ hq => ⟨fun h => h.1, fun h => ⟨h, le_large hq⟩⟩)

/-- C63: the same for `Positive`. -/
theorem C63_positive_partial : AcceptsExactlyNumbers positiveInterval (fun q => 0 < q) :=
  accepts_numbers 0 maxDouble false true _ (fun _ hq => ⟨fun h => h.1, fun h => ⟨h, le_large hq⟩⟩)

theorem isDouble_neg {q : ℚ} (h : IsDouble q) : IsDouble (-q) := by
  obtain ⟨⟨m, e, h1, h2, h3⟩, h4⟩ := h
  refine ⟨⟨-m, e, by rwa [abs_neg], h2, by rw [h3]; push_cast; ring⟩, by rwa [abs_neg]⟩

/-- C63: the same for `Negative`. -/
theorem C63_negative_partial : AcceptsExactlyNumbers negativeInterval (fun q => q < 0) :=
  accepts_numbers (-maxDouble) 0 true false _ (fun _ hq => ⟨fun h => h.2, fun h => ⟨by
    have := le_large (isDouble_neg hq)
    show -maxDouble ≤ _
    unfold maxDouble
    exact neg_le.mp this, h⟩⟩)

/-- C63: all these types accept a NaN, which is not in the interval. -/
theorem C63_nan : boundedValue dblComparison probabilityInterval .nan = some .nan ∧ boundedValue dblComparison nonNegativeInterval .nan = some .nan ∧
    boundedValue dblComparison positiveInterval .nan = some .nan ∧ boundedValue dblComparison negativeInterval .nan = some .nan ∧ ¬ AcceptsExactly probabilityInterval (fun q => 0 ≤ q ∧ q ≤ 1) := by
  have h1 : boundedValue dblComparison probabilityInterval .nan = some .nan := if_pos (contains_nan _ _ _ _)
  refine ⟨h1, if_pos (contains_nan _ _ _ _), if_pos (contains_nan _ _ _ _), if_pos (contains_nan _ _ _ _), fun h => ?_⟩
  have := (h .nan trivial).2 (fun ⟨q, hq, _⟩ => by cases hq)
  rw [h1] at this
  cases this

/-- Cases. -/
example : boundedValue dblComparison probabilityInterval (.fin (1 / 2)) = some (.fin (1 / 2)) ∧ boundedValue dblComparison probabilityInterval (.fin 1) = some (.fin 1) ∧
    boundedValue dblComparison probabilityInterval (.fin (3 / 2)) = none ∧ boundedValue dblComparison positiveInterval (.fin 0) = none ∧ boundedValue dblComparison positiveInterval .pinf = none ∧
    boundedValue dblComparison negativeInterval (.fin (-3)) = some (.fin (-3)) ∧ boundedValue dblComparison negativeInterval (.fin 0) = none := by
  decide +kernel

/-- C63: a `Positive<size_t>` accepts the positive numbers. -/
theorem C63_positive_size (n : ℤ) (h0 : 0 ≤ n) (h1 : n < 2 ^ 64) : boundedValue intComparison positiveSizeInterval n = if 0 < n then some n else none := by
  unfold boundedValue Interval.contains intComparison positiveSizeInterval maxSizeT
  by_cases h : 0 < n
  · rw [if_pos h]
    simp
    omega
  · rw [if_neg h]
    simp
    omega

/-- C63: a negative number of the type `int` is accepted as a `Positive<size_t>`, and turns into a large one. -/
theorem C63_negative_int (n : ℤ) (h0 : n < 0) (h1 : -2 ^ 31 ≤ n) : positiveSizeOfInt n = some (2 ^ 64 + n) := by
  unfold positiveSizeOfInt
  rw [← Int.add_emod_right, Int.emod_eq_of_lt (by omega) (by omega), C63_positive_size _ (by omega) (by omega), if_pos (by omega)]
  congr 1
  omega

example : positiveSizeOfInt (-1) = some 18446744073709551615 ∧ positiveSizeOfInt 0 = none ∧ positiveSizeOfInt 100 = some 100 := by decide +kernel

end Gapp.Props
