import Mathlib.MeasureTheory.Integral.Lebesgue.Add
import Mathlib.MeasureTheory.Measure.Typeclasses.Probability
import Mathlib.Algebra.BigOperators.Ring.Finset
import Mathlib.Tactic.Ring
import Verif.Spec.Draws
import Verif.Model.Rng
/-! # Laws of the results of independent draws -/

namespace Gapp.Proofs.Draws
open MeasureTheory Gapp.Spec Gapp.Model

variable {α : Type} [MeasurableSpace α] (μ : Measure α)

theorem drawProb_congr (N : Nat) {E E' : List α → Prop} (h : ∀ l, E l ↔ E' l) : drawProb μ N E = drawProb μ N E' := by
  rw [show E = E' from funext (fun l => propext (h l))]

/-- Events are only looked at for lists of the right length. -/
theorem drawProb_congr_length : ∀ (N : Nat) {E E' : List α → Prop}, (∀ l, l.length = N → (E l ↔ E' l)) → drawProb μ N E = drawProb μ N E'
  | 0, E, E', h => by
      have := h [] rfl
      simp only [drawProb]
      by_cases h1 : E []
      · rw [if_pos h1, if_pos (this.mp h1)]
      · rw [if_neg h1, if_neg (fun h2 => h1 (this.mpr h2))]
  | N + 1, E, E', h => by
      unfold drawProb
      congr 1
      funext x
      exact drawProb_congr_length N (fun l hl => h (x :: l) (by simp [hl]))

theorem drawProb_true [IsProbabilityMeasure μ] : ∀ N : Nat, drawProb μ N (fun _ => True) = 1
  | 0 => by simp [drawProb]
  | N + 1 => by simp [drawProb, drawProb_true N]

theorem drawProb_false : ∀ N : Nat, drawProb μ N (fun _ => False) = 0
  | 0 => by simp [drawProb]
  | N + 1 => by simp [drawProb, drawProb_false N]

/-- Drawing until a value is accepted. -/
theorem drawProb_find [IsProbabilityMeasure μ] (acc : α → Bool) (P : α → Prop) (hA : MeasurableSet {x | acc x = true}) (hB : MeasurableSet {x | acc x = true ∧ P x}) (N : Nat) :
    drawProb μ N (fun l => ∃ x, l.find? acc = some x ∧ P x) = μ {x | acc x = true ∧ P x} * ∑ i ∈ Finset.range N, μ {x | acc x = true}ᶜ ^ i := by
  induction N with
  | zero => simp [drawProb]
  | succ N ih =>
    have hfun : ∀ x, drawProb μ N (fun l => ∃ y, (x :: l).find? acc = some y ∧ P y) =
        Set.indicator {x | acc x = true ∧ P x} (fun _ => 1) x + Set.indicator {x | acc x = true}ᶜ (fun _ => drawProb μ N (fun l => ∃ x, l.find? acc = some x ∧ P x)) x := by
      intro x
      by_cases h1 : acc x = true
      · have hc : x ∉ ({x | acc x = true}ᶜ : Set α) := by simpa using h1
        rw [Set.indicator_of_notMem hc, add_zero]
        by_cases h2 : P x
        · rw [Set.indicator_of_mem (show x ∈ {x | acc x = true ∧ P x} from ⟨h1, h2⟩), ← drawProb_true μ N]
          apply drawProb_congr
          intro l
          simp [List.find?_cons, h1, h2]
        · rw [Set.indicator_of_notMem (fun h : x ∈ {x | acc x = true ∧ P x} => h2 h.2), ← drawProb_false μ N]
          apply drawProb_congr
          intro l
          simp [List.find?_cons, h1, h2]
      · have hc : x ∈ ({x | acc x = true}ᶜ : Set α) := by simpa using h1
        rw [Set.indicator_of_mem hc, Set.indicator_of_notMem (fun h : x ∈ {x | acc x = true ∧ P x} => h1 h.1), zero_add]
        apply drawProb_congr
        intro l
        simp [List.find?_cons, h1]
    show ∫⁻ x, drawProb μ N (fun l => ∃ y, (x :: l).find? acc = some y ∧ P y) ∂μ = _
    simp only [hfun]
    rw [lintegral_add_left (measurable_const.indicator hB), lintegral_indicator_const hB, lintegral_indicator_const hA.compl, ih, Finset.sum_range_succ', one_mul, mul_add, pow_zero, mul_one,
      add_comm]
    congr 1
    rw [mul_assoc, Finset.sum_mul]
    simp only [pow_succ]

theorem sum_pow_ne (q : ENNReal) (hq : q ≤ 1) (N : Nat) (hN : 0 < N) : (∑ i ∈ Finset.range N, q ^ i) ≠ 0 ∧ (∑ i ∈ Finset.range N, q ^ i) ≠ ⊤ := by
  constructor
  · intro h
    have := (Finset.sum_eq_zero_iff.mp h) 0 (by simpa using hN)
    simp at this
  · apply ENNReal.sum_ne_top.mpr
    intro i _
    exact ENNReal.pow_ne_top (ne_top_of_le_ne_top ENNReal.one_ne_top hq)

/-- The number of accepted draws among `n`. -/
theorem drawProb_exact (ν : Measure ℝ) [IsProbabilityMeasure ν] (p : ℝ) : ∀ (n k : Nat),
    drawProb ν n (fun l => binomialExact n p l = some (k : Int)) = (n.choose k : ENNReal) * ν {r | r ≤ p} ^ k * ν {r | r ≤ p}ᶜ ^ (n - k)
  | 0, k => by
      unfold drawProb
      cases k with
      | zero => simp [binomialExact]
      | succ k =>
        simp only [binomialExact, Option.some.injEq]
        rw [if_neg (by push_cast; omega)]
        simp
  | n + 1, k => by
      have hA : MeasurableSet {r : ℝ | r ≤ p} := measurableSet_Iic
      have hnn : ∀ (n : Nat) (l : List ℝ) (v : Int), binomialExact n p l = some v → 0 ≤ v := by
        intro n
        induction n with
        | zero => intro l v h; simp [binomialExact] at h; omega
        | succ n ih =>
          intro l v h
          cases l with
          | nil => simp [binomialExact] at h
          | cons r l =>
            simp only [binomialExact, Option.map_eq_some_iff] at h
            obtain ⟨a, ha, rfl⟩ := h
            have := ih l a ha
            split <;> omega
      have hmiss : ∀ x, ¬ x ≤ p → drawProb ν n (fun l => binomialExact (n + 1) p (x :: l) = some (k : Int)) = drawProb ν n (fun l => binomialExact n p l = some (k : Int)) := by
        intro x hx
        apply drawProb_congr
        intro l
        simp [binomialExact, hx]
      cases k with
      | zero =>
        have hhit : ∀ x, x ≤ p → drawProb ν n (fun l => binomialExact (n + 1) p (x :: l) = some ((0 : Nat) : Int)) = 0 := by
          intro x hx
          rw [← drawProb_false ν n]
          apply drawProb_congr
          intro l
          simp only [binomialExact, hx, if_true, iff_false, Option.map_eq_some_iff, not_exists, not_and]
          intro a ha
          have := hnn n l a ha
          push_cast
          omega
        have hfun : ∀ x, drawProb ν n (fun l => binomialExact (n + 1) p (x :: l) = some ((0 : Nat) : Int)) =
            Set.indicator {r : ℝ | r ≤ p}ᶜ (fun _ => drawProb ν n (fun l => binomialExact n p l = some ((0 : Nat) : Int))) x := by
          intro x
          by_cases hx : x ≤ p
          · rw [hhit x hx, Set.indicator_of_notMem (by simpa using hx)]
          · rw [hmiss x hx, Set.indicator_of_mem (by simpa using hx)]
        show ∫⁻ x, drawProb ν n (fun l => binomialExact (n + 1) p (x :: l) = some ((0 : Nat) : Int)) ∂ν = _
        simp only [hfun]
        rw [lintegral_indicator_const hA.compl, drawProb_exact ν p n 0]
        simp only [Nat.choose_zero_right, Nat.cast_one, pow_zero, mul_one, one_mul, Nat.sub_zero]
        rw [pow_succ]
      | succ k =>
        have hhit : ∀ x, x ≤ p → drawProb ν n (fun l => binomialExact (n + 1) p (x :: l) = some ((k + 1 : Nat) : Int)) = drawProb ν n (fun l => binomialExact n p l = some (k : Int)) := by
          intro x hx
          apply drawProb_congr
          intro l
          simp only [binomialExact, hx, if_true, Option.map_eq_some_iff]
          constructor
          · rintro ⟨a, ha, h⟩
            push_cast at h
            rw [ha]
            congr 1
            omega
          · intro h
            exact ⟨k, h, by push_cast; rfl⟩
        have hfun : ∀ x, drawProb ν n (fun l => binomialExact (n + 1) p (x :: l) = some ((k + 1 : Nat) : Int)) =
            Set.indicator {r : ℝ | r ≤ p} (fun _ => drawProb ν n (fun l => binomialExact n p l = some (k : Int))) x +
              Set.indicator {r : ℝ | r ≤ p}ᶜ (fun _ => drawProb ν n (fun l => binomialExact n p l = some ((k + 1 : Nat) : Int))) x := by
          intro x
          by_cases hx : x ≤ p
          · rw [hhit x hx, Set.indicator_of_mem (show x ∈ {r : ℝ | r ≤ p} from hx), Set.indicator_of_notMem (by simpa using hx), add_zero]
          · rw [hmiss x hx, Set.indicator_of_notMem (show x ∉ {r : ℝ | r ≤ p} from hx), Set.indicator_of_mem (by simpa using hx), zero_add]
        show ∫⁻ x, drawProb ν n (fun l => binomialExact (n + 1) p (x :: l) = some ((k + 1 : Nat) : Int)) ∂ν = _
        simp only [hfun]
        rw [lintegral_add_left (measurable_const.indicator hA), lintegral_indicator_const hA, lintegral_indicator_const hA.compl, drawProb_exact ν p n k, drawProb_exact ν p n (k + 1)]
        rw [Nat.succ_sub_succ, Nat.choose_succ_succ]
        push_cast
        rcases Nat.lt_or_ge n (k + 1) with h | h
        · rw [Nat.choose_eq_zero_of_lt h]
          push_cast
          ring
        · have : n - k = n - (k + 1) + 1 := by omega
          rw [this, pow_succ]
          ring

end Gapp.Proofs.Draws
