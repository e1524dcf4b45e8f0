import Verif.Spec.Float
import Mathlib.Tactic.Linarith
/-! Proofs about the tolerant comparisons. -/

namespace Gapp.Model
open Gapp.Spec Flt
variable {K : Type} [CommRing K] [LinearOrder K] [IsStrictOrderedRing K]

namespace Flt
omit [CommRing K] [IsStrictOrderedRing K]

@[simp] theorem fin_lt_fin {a b : K} : (fin a < fin b) ↔ a < b := by
  change toW (K := K) _ < toW _ ↔ _
  simp [toW]
@[simp] theorem fin_le_fin {a b : K} : (fin a ≤ fin b) ↔ a ≤ b := by
  change toW (K := K) _ ≤ toW _ ↔ _
  simp [toW]
@[simp] theorem ninf_lt_fin {a : K} : (ninf < fin a) := by
  change toW (K := K) _ < toW _
  exact WithBot.bot_lt_coe _
@[simp] theorem ninf_lt_pinf : ((ninf : Flt K) < pinf) := by
  change toW (K := K) _ < toW _
  exact WithBot.bot_lt_coe _
@[simp] theorem fin_lt_pinf {a : K} : (fin a < pinf) := by
  change toW (K := K) _ < toW _
  exact WithBot.coe_lt_coe.2 (WithTop.coe_lt_top a)
@[simp] theorem not_lt_ninf {x : Flt K} : ¬ x < ninf := by
  change ¬ toW (K := K) _ < toW _
  exact WithBot.not_lt_bot _
@[simp] theorem not_pinf_lt {x : Flt K} : ¬ pinf < x := by
  cases x
  · exact not_lt_of_gt ninf_lt_pinf
  · exact not_lt_of_gt fin_lt_pinf
  · exact lt_irrefl _
end Flt

/-- Non-negative tolerances (`NonNegative<double>` in `ScopedTolerances`, math.hpp:82). -/
structure Tol.Valid (t : Tol K) : Prop where
  abs_nonneg : 0 ≤ t.abs
  rel_nonneg : 0 ≤ t.rel

omit [IsStrictOrderedRing K] in
theorem Tol.lt_at {t : Tol K} {s d : K} : t.at s < d ↔ t.rel * s < d ∧ t.abs < d := max_lt_iff

theorem Tol.at_max {t : Tol K} (ht : t.Valid) (a b : K) : t.at (max a b) = max (t.at a) (t.at b) := by
  unfold Tol.at
  rw [mul_max_of_nonneg _ _ ht.rel_nonneg]
  rw [max_max_max_comm, max_self]

theorem isLess_iff {t : Tol K} (ht : t.Valid) (a b : Flt K) :
    floatIsLess t a b = true ↔ DefinitelyLess t a b := by
  cases a <;> cases b <;> simp [floatIsLess, DefinitelyLess, gt_iff_lt]
  rw [Tol.at_max ht, max_lt_iff, Tol.lt_at, Tol.lt_at]
  tauto

omit [IsStrictOrderedRing K] in
theorem isGreater_eq (t : Tol K) (a b : Flt K) : floatIsGreater t a b = floatIsLess t b a := by
  cases a <;> cases b <;> simp [floatIsGreater, floatIsLess, max_comm]

theorem definitelyLess_lt {t : Tol K} (ht : t.Valid) {a b : Flt K} (h : DefinitelyLess t a b) :
    a < b := by
  cases a <;> cases b <;> simp_all [DefinitelyLess]
  have := ht.abs_nonneg
  linarith

theorem definitelyLess_trans {t : Tol K} (ht : t.Valid) {a b c : Flt K} (h1 : DefinitelyLess t a b)
    (h2 : DefinitelyLess t b c) : DefinitelyLess t a c := by
  cases a <;> cases b <;> cases c <;> simp_all [DefinitelyLess]
  have := ht.abs_nonneg
  exact ⟨by linarith, by linarith, by linarith⟩

theorem definitelyLess_mono {t : Tol K} (ht : t.Valid) (hr : t.rel ≤ 1) {a a' b b' : Flt K}
    (h : DefinitelyLess t a b) (ha : a' ≤ a) (hb : b ≤ b') : DefinitelyLess t a' b' := by
  have h0 := definitelyLess_lt ht h
  have h0' : a' < b' := lt_of_le_of_lt ha (lt_of_lt_of_le h0 hb)
  rcases a' with _ | a' | _ <;> rcases b' with _ | b' | _ <;> try (simp_all [DefinitelyLess]; done)
  rcases a with _ | a | _
  · exact absurd ha (not_le.2 ninf_lt_fin)
  · rcases b with _ | b | _
    · simp at h0
    · simp only [DefinitelyLess, fin_le_fin, gt_iff_lt] at *
      obtain ⟨h1, h2, h3⟩ := h
      have hn := ht.rel_nonneg
      have hb' : t.rel * |b'| ≤ t.rel * |b| + (b' - b) := by
        have e : |b'| ≤ |b| + (b' - b) := by
          have := abs_add_le b (b' - b)
          rw [abs_of_nonneg (sub_nonneg.2 hb)] at this
          simpa using this
        have := mul_le_mul_of_nonneg_left e hn
        have h4 : t.rel * (b' - b) ≤ 1 * (b' - b) :=
          mul_le_mul_of_nonneg_right hr (sub_nonneg.2 hb)
        rw [mul_add] at this
        linarith
      have ha' : t.rel * |a'| ≤ t.rel * |a| + (a - a') := by
        have e : |a'| ≤ |a| + (a - a') := by
          have := abs_sub_abs_le_abs_sub a' a
          rw [abs_sub_comm, abs_of_nonneg (sub_nonneg.2 ha)] at this
          linarith
        have := mul_le_mul_of_nonneg_left e hn
        have h4 : t.rel * (a - a') ≤ 1 * (a - a') :=
          mul_le_mul_of_nonneg_right hr (sub_nonneg.2 ha)
        rw [mul_add] at this
        linarith
      exact ⟨by linarith, by linarith, by linarith⟩
    · exact absurd hb (not_le.2 fin_lt_pinf)
  · simp at h0

theorem floatCompare_lt_iff (t : Tol K) (ht : 0 ≤ t.abs) (a b : Flt K) :
    floatCompare t a b = .lt ↔ floatIsLess t a b = true := by
  cases a <;> cases b <;> simp [floatCompare, floatIsLess]
  rename_i a b
  have h0 : 0 ≤ t.at (max |a| |b|) := le_max_of_le_right ht
  split
  · simp; linarith
  · split
    · simp; linarith
    · simp; linarith

omit [IsStrictOrderedRing K] in
theorem floatCompare_gt_iff (t : Tol K) (a b : Flt K) :
    floatCompare t a b = .gt ↔ floatIsLess t b a = true := by
  cases a <;> cases b <;> simp [floatCompare, floatIsLess]
  rename_i a b
  rw [max_comm |b| |a|]
  by_cases h1 : t.at (max |a| |b|) < a - b
  · simp [h1]
  · by_cases h2 : a - b < -t.at (max |a| |b|) <;> simp [h1, h2] <;> exact not_lt.1 h1

theorem floatIsEqual_iff (t : Tol K) (a b : Flt K) :
    floatIsEqual t a b = true ↔ floatIsLess t a b = false ∧ floatIsLess t b a = false := by
  cases a <;> cases b <;> simp [floatIsEqual, floatIsLess]
  rename_i a b
  rw [max_comm |b| |a|, abs_le]
  constructor
  · rintro ⟨h1, h2⟩; exact ⟨by linarith, by linarith⟩
  · rintro ⟨h1, h2⟩; exact ⟨by linarith, by linarith⟩

theorem isLess_zero (a b : Flt K) : floatIsLess (⟨0, 0⟩ : Tol K) a b = decide (a < b) := by
  cases a <;> cases b <;> simp [floatIsLess, Tol.at]

theorem isLessANG_zero (a b : Flt K) :
    floatIsLessAssumeNotGreater (⟨0, 0⟩ : Tol K) a b = decide (a < b) := by
  cases a <;> cases b <;> simp [floatIsLessAssumeNotGreater, Tol.at]

theorem isEqual_zero (a b : Flt K) : floatIsEqual (⟨0, 0⟩ : Tol K) a b = decide (a = b) := by
  cases a <;> cases b <;> simp [floatIsEqual, Tol.at, sub_eq_zero]

/-- `floatIsLess` implies its `AssumeNotGreater` variant. -/
theorem isLess_imp_ANG {t : Tol K} (ht : t.Valid) {a b : Flt K} (h : floatIsLess t a b = true) :
    floatIsLessAssumeNotGreater t a b = true := by
  cases a <;> cases b <;> simp_all [floatIsLess, floatIsLessAssumeNotGreater]
  rw [Tol.at_max ht, max_lt_iff] at h
  exact h.2

/-- The two agree if the tolerance is purely absolute, or if the values are non-negative. -/
theorem ANG_imp_isLess {t : Tol K} (ht : t.Valid) {a b : Flt K}
    (hs : t.rel = 0 ∨ (fin 0 ≤ a)) (h : floatIsLessAssumeNotGreater t a b = true) :
    floatIsLess t a b = true := by
  cases a <;> cases b <;> simp_all [floatIsLess, floatIsLessAssumeNotGreater]
  rename_i a b
  rcases hs with hs | hs
  · simpa [Tol.at, hs] using h
  · have hab : a < b := by
      have := (Tol.lt_at.1 h).2
      have := ht.abs_nonneg
      linarith
    rwa [abs_of_nonneg hs, max_eq_right (by rw [abs_of_nonneg (by linarith)]; exact hab.le)]

/-! ### Pareto comparison -/

omit [CommRing K] [LinearOrder K] [IsStrictOrderedRing K] in
theorem any_zip_iff (a b : FVec K) (p : Flt K × Flt K → Bool) :
    (a.zip b).any p = true ↔
      ∃ (i : Nat) (ha : i < a.length) (hb : i < b.length), p (a[i], b[i]) = true := by
  rw [List.any_eq_true]
  constructor
  · rintro ⟨x, hx, hp⟩
    obtain ⟨i, hi, rfl⟩ := List.getElem_of_mem hx
    simp only [List.length_zip] at hi
    exact ⟨i, by omega, by omega, by simpa using hp⟩
  · rintro ⟨i, ha, hb, hp⟩
    exact ⟨(a[i], b[i]), List.mem_iff_getElem.2 ⟨i, by simp; omega, by simp⟩, hp⟩

omit [IsStrictOrderedRing K] in
theorem paretoCompareLess_iff (t : Tol K) (a b : FVec K) :
    paretoCompareLess t a b = true ↔
      (∀ (i : Nat) (ha : i < a.length) (hb : i < b.length), ¬ floatIsLess t b[i] a[i] = true) ∧
      (∃ (i : Nat) (ha : i < a.length) (hb : i < b.length),
        floatIsLessAssumeNotGreater t a[i] b[i] = true) := by
  unfold paretoCompareLess
  split
  · rename_i h
    obtain ⟨i, ha, hb, hp⟩ := (any_zip_iff a b _).1 h
    simp only [Bool.false_eq_true, false_iff]
    rintro ⟨h1, -⟩
    exact h1 i ha hb hp
  · rename_i h
    rw [any_zip_iff] at h ⊢
    constructor
    · intro h2
      exact ⟨fun i ha hb hp => h ⟨i, ha, hb, hp⟩, h2⟩
    · exact fun h2 => h2.2

theorem paretoCompareLoop_eq {t : Tol K} (ht : t.Valid) (l r : Bool) (ps : List (Flt K × Flt K))
    (hlr : ¬ (l = true ∧ r = true)) :
    paretoCompareLoop t l r ps =
      let l' := l || ps.any (fun p => floatIsLess t p.1 p.2)
      let r' := r || ps.any (fun p => floatIsLess t p.2 p.1)
      if l' && r' then 0 else (if r' then 1 else 0) - (if l' then 1 else 0) := by
  induction ps generalizing l r with
  | nil => cases l <;> cases r <;> simp_all [paretoCompareLoop]
  | cons p ps ih =>
    have h1 := floatCompare_lt_iff t ht.abs_nonneg p.1 p.2
    have h2 := floatCompare_gt_iff t p.1 p.2
    have hasym : ¬ (floatIsLess t p.1 p.2 = true ∧ floatIsLess t p.2 p.1 = true) := by
      rintro ⟨h3, h4⟩
      exact absurd (definitelyLess_lt ht ((isLess_iff ht _ _).1 h3))
        (not_lt_of_gt (definitelyLess_lt ht ((isLess_iff ht _ _).1 h4)))
    simp only [paretoCompareLoop, List.any_cons]
    cases hc : floatCompare t p.1 p.2 with
    | lt =>
      have h3 := h1.1 hc
      have h4 : floatIsLess t p.2 p.1 = false := by
        simpa [h3] using hasym
      simp only [h3, h4]
      split
      · rename_i hr; subst hr; simp
      · rename_i hr; rw [ih _ _ (by simp_all)]
        generalize ps.any (fun p => floatIsLess t p.1 p.2) = u
        generalize ps.any (fun p => floatIsLess t p.2 p.1) = v
        revert l r u v; decide
    | gt =>
      have h3 := h2.1 hc
      have h4 : floatIsLess t p.1 p.2 = false := by
        simpa [h3] using hasym
      simp only [h3, h4]
      split
      · rename_i hr; subst hr; simp
      · rename_i hr; rw [ih _ _ (by simp_all)]
        generalize ps.any (fun p => floatIsLess t p.1 p.2) = u
        generalize ps.any (fun p => floatIsLess t p.2 p.1) = v
        revert l r u v; decide
    | eq =>
      have h3 : floatIsLess t p.1 p.2 = false := by
        rw [← Bool.not_eq_true, ← h1, hc]; simp
      have h4 : floatIsLess t p.2 p.1 = false := by
        rw [← Bool.not_eq_true, ← h2, hc]; simp
      simp only [h3, h4, Bool.false_or]
      rw [ih _ _ hlr]

/-- `paretoCompare` is the sign of dominance. -/
theorem paretoCompare_spec {t : Tol K} (ht : t.Valid) (a b : FVec K) :
    (paretoCompare t a b < 0 ↔ Dominates t b a) ∧ (paretoCompare t a b > 0 ↔ Dominates t a b) ∧
    (paretoCompare t a b = -1 ∨ paretoCompare t a b = 0 ∨ paretoCompare t a b = 1) := by
  have hl : (a.zip b).any (fun p => floatIsLess t p.1 p.2) = true ↔
      ∃ (i : Nat) (ha : i < a.length) (hb : i < b.length), DefinitelyLess t a[i] b[i] := by
    rw [any_zip_iff]; simp only [isLess_iff ht]
  have hr : (a.zip b).any (fun p => floatIsLess t p.2 p.1) = true ↔
      ∃ (i : Nat) (ha : i < a.length) (hb : i < b.length), DefinitelyLess t b[i] a[i] := by
    rw [any_zip_iff]; simp only [isLess_iff ht]
  have h1 : Dominates t b a ↔ (a.zip b).any (fun p => floatIsLess t p.2 p.1) = false ∧
      (a.zip b).any (fun p => floatIsLess t p.1 p.2) = true := by
    rw [hl, ← Bool.not_eq_true, hr, Dominates]; push Not; rfl
  have h2 : Dominates t a b ↔ (a.zip b).any (fun p => floatIsLess t p.1 p.2) = false ∧
      (a.zip b).any (fun p => floatIsLess t p.2 p.1) = true := by
    rw [hr, ← Bool.not_eq_true, hl, Dominates]; push Not
    constructor
    · rintro ⟨h3, i, hb, ha, h4⟩; exact ⟨fun i ha hb => h3 i hb ha, i, ha, hb, h4⟩
    · rintro ⟨h3, i, ha, hb, h4⟩; exact ⟨fun i hb ha => h3 i ha hb, i, hb, ha, h4⟩
  rw [h1, h2, paretoCompare, paretoCompareLoop_eq ht _ _ _ (by simp)]
  generalize (a.zip b).any (fun p => floatIsLess t p.1 p.2) = l
  generalize (a.zip b).any (fun p => floatIsLess t p.2 p.1) = r
  revert l r; decide

theorem definitelyLess_zero (a b : Flt K) : DefinitelyLess (⟨0, 0⟩ : Tol K) a b ↔ a < b := by
  rw [← isLess_iff ⟨le_rfl, le_rfl⟩, isLess_zero]; simp

theorem dominates_zero (b a : FVec K) : Dominates (⟨0, 0⟩ : Tol K) b a ↔ ExactDominates b a := by
  simp only [Dominates, ExactDominates, definitelyLess_zero, not_lt]

theorem paretoCompareLess_zero (a b : FVec K) :
    paretoCompareLess (⟨0, 0⟩ : Tol K) a b = true ↔ ExactDominates b a := by
  rw [paretoCompareLess_iff]
  simp only [isLess_zero, isLessANG_zero, decide_eq_true_eq, not_lt]
  rfl

theorem dominates_imp_less {t : Tol K} (ht : t.Valid) {a b : FVec K} (h : Dominates t b a) :
    paretoCompareLess t a b = true := by
  rw [paretoCompareLess_iff]
  refine ⟨fun i ha hb hc => h.1 i ha hb ((isLess_iff ht _ _).1 hc), ?_⟩
  obtain ⟨i, ha, hb, hl⟩ := h.2
  exact ⟨i, ha, hb, isLess_imp_ANG ht ((isLess_iff ht _ _).2 hl)⟩

theorem less_imp_dominates {t : Tol K} (ht : t.Valid) {a b : FVec K}
    (hs : t.rel = 0 ∨ ∀ x ∈ a, fin 0 ≤ x) (h : paretoCompareLess t a b = true) : Dominates t b a := by
  rw [paretoCompareLess_iff] at h
  refine ⟨fun i ha hb hc => h.1 i ha hb ((isLess_iff ht _ _).2 hc), ?_⟩
  obtain ⟨i, ha, hb, hl⟩ := h.2
  exact ⟨i, ha, hb, (isLess_iff ht _ _).1
    (ANG_imp_isLess ht (hs.imp id fun hx => hx _ (List.getElem_mem _)) hl)⟩

omit [CommRing K] [IsStrictOrderedRing K] in
theorem exactDominates_irrefl (a : FVec K) : ¬ ExactDominates a a := by
  rintro ⟨-, i, ha, hb, h⟩; exact lt_irrefl _ h

omit [CommRing K] [IsStrictOrderedRing K] in
theorem exactDominates_trans {a b c : FVec K} (hab : a.length = b.length) (hbc : b.length = c.length)
    (h1 : ExactDominates b a) (h2 : ExactDominates c b) : ExactDominates c a := by
  refine ⟨fun i ha hc => le_trans (h1.1 i ha (by omega)) (h2.1 i (by omega) hc), ?_⟩
  obtain ⟨i, ha, hb, hl⟩ := h1.2
  exact ⟨i, ha, by omega, lt_of_lt_of_le hl (h2.1 i hb (by omega))⟩

theorem dominates_irrefl {t : Tol K} (ht : t.Valid) (a : FVec K) : ¬ Dominates t a a := by
  rintro ⟨-, i, ha, hb, h⟩; exact lt_irrefl _ (definitelyLess_lt ht h)

omit [IsStrictOrderedRing K] in
theorem dominates_asymm {t : Tol K} {a b : FVec K} (h1 : Dominates t b a) : ¬ Dominates t a b := by
  rintro ⟨h3, -⟩
  obtain ⟨i, ha, hb, hl⟩ := h1.2
  exact h3 i hb ha hl

end Gapp.Model
