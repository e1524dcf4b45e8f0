import Mathlib.Probability.Distributions.Gaussian.Real
import Mathlib.Tactic.FieldSimp
import Verif.Props.Rates

/-!
# C80: mutation rates, when the number of the mutated genes is drawn from a normal distribution
-/

namespace Gapp.Props

open Gapp.Model Gapp.Spec Gapp.Proofs.Draws MeasureTheory ProbabilityTheory

/-- The numbers of genes and the mutation rates for which the number of the mutated genes is drawn from a normal distribution. -/
def UsesNormal (n : Nat) (p : ℝ) : Prop := 0 < p ∧ p < 1 ∧ 5 < n ∧ ¬ ((n > 50 ∧ p * n < 10) ∨ ((5 < n ∧ n ≤ 50) ∧ p < 1 / 5))

noncomputable abbrev stdNormal : Measure ℝ := gaussianReal 0 1

/-- The draws from the standard normal distribution that are accepted. -/
def normalAcc (n : Nat) (p sd : ℝ) : Set ℝ := {z | -(1 / 2) < sd * z + n * p ∧ sd * z + n * p < (n : ℝ) + 1 / 2}

/-- The draws that are accepted and give `k` mutated genes. -/
def normalCell (n : Nat) (p sd : ℝ) (k : Nat) : Set ℝ := {z | (-(1 / 2) < sd * z + n * p ∧ sd * z + n * p < (n : ℝ) + 1 / 2) ∧ stdRound (sd * z + n * p) = (k : Int)}

theorem stdRound_eq_iff (x : ℝ) (hx : -(1 / 2) < x) (k : Nat) : stdRound x = (k : Int) ↔ (k : ℝ) - 1 / 2 ≤ x ∧ x < k + 1 / 2 := by
  unfold stdRound
  split
  · rw [Int.floor_eq_iff]
    push_cast
    constructor
    · rintro ⟨h1, h2⟩; constructor <;> linarith
    · rintro ⟨h1, h2⟩; constructor <;> linarith
  · rename_i h
    have : ⌊-x + 1 / 2⌋ = 0 := by
      rw [Int.floor_eq_iff]
      push_cast
      constructor <;> linarith
    rw [this]
    constructor
    · intro hk
      have : k = 0 := by omega
      subst this
      push_cast
      constructor <;> linarith
    · rintro ⟨h1, h2⟩
      have : (k : ℝ) < 1 := by linarith
      have : k < 1 := by exact_mod_cast this
      omega

theorem normalCell_eq (n : Nat) (p sd : ℝ) (k : Nat) (hk : k ≤ n) :
    normalCell n p sd k = {z | -(1 / 2) < sd * z + n * p ∧ (k : ℝ) - 1 / 2 ≤ sd * z + n * p ∧ sd * z + n * p < k + 1 / 2} := by
  ext z
  simp only [normalCell, Set.mem_setOf_eq]
  have : (k : ℝ) ≤ n := by exact_mod_cast hk
  constructor
  · rintro ⟨⟨h1, _⟩, h3⟩
    exact ⟨h1, (stdRound_eq_iff _ h1 k).mp h3⟩
  · rintro ⟨h1, h2, h3⟩
    exact ⟨⟨h1, by linarith⟩, (stdRound_eq_iff _ h1 k).mpr ⟨h2, h3⟩⟩

theorem measurable_affine (n : Nat) (p sd : ℝ) : Measurable (fun z : ℝ => sd * z + n * p) := by fun_prop

theorem measurableSet_normalAcc (n : Nat) (p sd : ℝ) : MeasurableSet (normalAcc n p sd) :=
  (measurableSet_lt measurable_const (measurable_affine n p sd)).inter (measurableSet_lt (measurable_affine n p sd) measurable_const)

theorem measurableSet_normalCell (n : Nat) (p sd : ℝ) (k : Nat) (hk : k ≤ n) : MeasurableSet (normalCell n p sd k) := by
  rw [normalCell_eq n p sd k hk]
  exact (measurableSet_lt measurable_const (measurable_affine n p sd)).inter
    ((measurableSet_le measurable_const (measurable_affine n p sd)).inter (measurableSet_lt (measurable_affine n p sd) measurable_const))

theorem normal_law (n : Nat) (p sd : ℝ) (hp : UsesNormal n p) (po : List Nat) (reals : List ℝ) (N : Nat) (hN : 0 < N) (k : Nat) (hk : k ≤ n) :
    resultProb stdNormal N (fun z => randomBinomial n p sd z po reals) k = stdNormal.real (normalCell n p sd k) / stdNormal.real (normalAcc n p sd) := by
  obtain ⟨h0, h1, h5, hc⟩ := hp
  have e : ∀ z, randomBinomial n p sd z po reals = (z.find? (fun z : ℝ => decide (-(1 / 2) < sd * z + n * p ∧ sd * z + n * p < (n : ℝ) + 1 / 2))).map (fun z => stdRound (sd * z + n * p)) := by
    intro z
    unfold randomBinomial binomialApproxNormal
    simp only [decide_eq_false hc, Bool.false_eq_true, if_false]
    rw [if_pos h5, List.find?_map, Option.map_map]
    rfl
  unfold resultProb
  simp only [e]
  have e1 : drawProb stdNormal N (fun zs => (zs.find? (fun z : ℝ => decide (-(1 / 2) < sd * z + n * p ∧ sd * z + n * p < (n : ℝ) + 1 / 2))).map (fun z => stdRound (sd * z + n * p)) = some (k : Int)) =
      drawProb stdNormal N (fun zs => ∃ x, zs.find? (fun z : ℝ => decide (-(1 / 2) < sd * z + n * p ∧ sd * z + n * p < (n : ℝ) + 1 / 2)) = some x ∧ stdRound (sd * x + n * p) = (k : Int)) := by
    apply drawProb_congr
    intro l
    simp only [Option.map_eq_some_iff]
  have e2 : drawProb stdNormal N (fun zs => ((zs.find? (fun z : ℝ => decide (-(1 / 2) < sd * z + n * p ∧ sd * z + n * p < (n : ℝ) + 1 / 2))).map (fun z => stdRound (sd * z + n * p))).isSome = true) =
      drawProb stdNormal N (fun zs => ∃ x, zs.find? (fun z : ℝ => decide (-(1 / 2) < sd * z + n * p ∧ sd * z + n * p < (n : ℝ) + 1 / 2)) = some x ∧ True) := by
    apply drawProb_congr
    intro l
    simp only [Option.isSome_map, Option.isSome_iff_exists, and_true]
  have s0 : {z : ℝ | decide (-(1 / 2) < sd * z + n * p ∧ sd * z + n * p < (n : ℝ) + 1 / 2) = true} = normalAcc n p sd := by
    ext z; simp only [decide_eq_true_eq, normalAcc]
  have s1 : {z : ℝ | decide (-(1 / 2) < sd * z + n * p ∧ sd * z + n * p < (n : ℝ) + 1 / 2) = true ∧ stdRound (sd * z + n * p) = (k : Int)} = normalCell n p sd k := by
    ext z; simp only [decide_eq_true_eq, normalCell]
  have s2 : {z : ℝ | decide (-(1 / 2) < sd * z + n * p ∧ sd * z + n * p < (n : ℝ) + 1 / 2) = true ∧ True} = normalAcc n p sd := by
    ext z; simp only [decide_eq_true_eq, normalAcc, and_true]
  have m0 := measurableSet_normalAcc n p sd
  have m1 := measurableSet_normalCell n p sd k hk
  rw [e1, e2, drawProb_find stdNormal _ _ (by rw [s0]; exact m0) (by rw [s1]; exact m1), drawProb_find stdNormal _ _ (by rw [s0]; exact m0) (by rw [s2]; exact m0), s0, s1, s2]
  obtain ⟨hne0, hnet⟩ := sum_pow_ne (stdNormal (normalAcc n p sd)ᶜ) prob_le_one N hN
  generalize (∑ i ∈ Finset.range N, stdNormal (normalAcc n p sd)ᶜ ^ i) = S at *
  rw [ENNReal.toReal_mul, ENNReal.toReal_mul, mul_div_mul_right _ _ (ENNReal.toReal_ne_zero.mpr ⟨hne0, hnet⟩)]
  rfl

/-! ### Symmetry -/

theorem stdNormal_neg : MeasurePreserving (fun x : ℝ => -x) stdNormal stdNormal :=
  ⟨measurable_neg, by rw [stdNormal, gaussianReal_map_neg, neg_zero]⟩

/-- The draws that give `k` mutated genes, without the boundaries. -/
def normalCore (n : Nat) (p sd : ℝ) (k : Nat) : Set ℝ := {z | (k : ℝ) - 1 / 2 < sd * z + n * p ∧ sd * z + n * p < k + 1 / 2}

theorem measurableSet_normalCore (n : Nat) (p sd : ℝ) (k : Nat) : MeasurableSet (normalCore n p sd k) :=
  (measurableSet_lt measurable_const (measurable_affine n p sd)).inter (measurableSet_lt (measurable_affine n p sd) measurable_const)

theorem cell_core (n : Nat) (p sd : ℝ) (hsd : 0 < sd) (k : Nat) (hk : k ≤ n) : stdNormal.real (normalCell n p sd k) = stdNormal.real (normalCore n p sd k) := by
  have hna : NullSingletonClass stdNormal := nullSingletonClass_gaussianReal (by norm_num)
  apply measureReal_congr
  have hs : normalCell n p sd k \ {(((k : ℝ) - 1 / 2) - n * p) / sd} = normalCore n p sd k \ {(((k : ℝ) - 1 / 2) - n * p) / sd} := by
    ext z
    rw [normalCell_eq n p sd k hk]
    simp only [Set.mem_diff, Set.mem_setOf_eq, Set.mem_singleton_iff, normalCore]
    have hk0 : (0 : ℝ) ≤ k := Nat.cast_nonneg k
    constructor
    · rintro ⟨⟨h1, h2, h3⟩, h4⟩
      refine ⟨⟨lt_of_le_of_ne h2 ?_, h3⟩, h4⟩
      intro h
      apply h4
      rw [eq_div_iff hsd.ne']
      linarith
    · rintro ⟨⟨h2, h3⟩, h4⟩
      exact ⟨⟨by linarith, h2.le, h3⟩, h4⟩
  have h1 := diff_null_ae_eq_self (s := normalCell n p sd k) (measure_singleton (μ := stdNormal) ((((k : ℝ) - 1 / 2) - n * p) / sd))
  have h2 := diff_null_ae_eq_self (s := normalCore n p sd k) (measure_singleton (μ := stdNormal) ((((k : ℝ) - 1 / 2) - n * p) / sd))
  rw [hs] at h1
  exact h1.symm.trans h2

theorem core_symm (n : Nat) (p sd : ℝ) (m : Nat) (hm : 2 * (n * p) = m) (k : Nat) (hk : k ≤ m) : stdNormal.real (normalCore n p sd (m - k)) = stdNormal.real (normalCore n p sd k) := by
  have h := stdNormal_neg.measureReal_preimage (measurableSet_normalCore n p sd k).nullMeasurableSet
  rw [← h]
  congr 1
  ext z
  simp only [normalCore, Set.mem_setOf_eq, Set.mem_preimage]
  rw [Nat.cast_sub hk, ← hm]
  constructor
  · rintro ⟨h1, h2⟩; constructor <;> linarith
  · rintro ⟨h1, h2⟩; constructor <;> linarith

theorem core_pos (n : Nat) (p sd : ℝ) (hsd : 0 < sd) (k : Nat) : 0 < stdNormal.real (normalCore n p sd k) := by
  rw [measureReal_def, ENNReal.toReal_pos_iff]
  refine ⟨?_, measure_lt_top _ _⟩
  rw [pos_iff_ne_zero]
  intro h0
  have h1 := gaussianReal_absolutelyContinuous' 0 (v := 1) (by norm_num) h0
  have hopen : IsOpen (normalCore n p sd k) := by
    have hc : Continuous (fun z : ℝ => sd * z + n * p) := by fun_prop
    exact (isOpen_lt continuous_const hc).inter (isOpen_lt hc continuous_const)
  have hne : (normalCore n p sd k).Nonempty := by
    refine ⟨((k : ℝ) - n * p) / sd, ?_⟩
    have : sd * (((k : ℝ) - n * p) / sd) = k - n * p := by field_simp
    simp only [normalCore, Set.mem_setOf_eq, this]
    constructor <;> linarith
  exact (hopen.measure_pos volume hne).ne' h1

theorem acc_sum (n : Nat) (p sd : ℝ) : stdNormal.real (normalAcc n p sd) = ∑ k ∈ Finset.range (n + 1), stdNormal.real (normalCell n p sd k) := by
  rw [← measureReal_biUnion_finset]
  · congr 1
    ext z
    simp only [Set.mem_iUnion, Finset.mem_range, exists_prop]
    constructor
    · intro h
      have h1 := h.1
      have h2 := h.2
      have hk : 0 ≤ ⌊sd * z + n * p + 1 / 2⌋ := Int.floor_nonneg.mpr (by linarith)
      obtain ⟨k, hk'⟩ := Int.eq_ofNat_of_zero_le hk
      have h3 := Int.floor_le (sd * z + n * p + 1 / 2)
      have h4 := Int.lt_floor_add_one (sd * z + n * p + 1 / 2)
      rw [hk'] at h3 h4
      push_cast at h3 h4
      refine ⟨k, ?_, h, (stdRound_eq_iff _ h1 k).mpr ⟨by linarith, by linarith⟩⟩
      have : (k : ℝ) < n + 1 := by linarith
      exact_mod_cast this
    · rintro ⟨k, _, h⟩
      exact h.1
  · intro a _ b _ hab
    rw [Function.onFun, Set.disjoint_left]
    rintro z ⟨_, h1⟩ ⟨_, h2⟩
    apply hab
    rw [h1] at h2
    exact_mod_cast h2
  · intro k hk
    rw [Finset.mem_range] at hk
    exact measurableSet_normalCell n p sd k (by omega)

/-- The probability that a gene is mutated, as a weighted sum. -/
theorem normal_rate (n : Nat) (hn : n < 65536) (p sd : ℝ) (hsd : 0 < sd) (hp : UsesNormal n p) (po : List Nat) (reals : List ℝ) (N : Nat) (hN : 0 < N) (many : Nat → Bool) (i : Nat) (hi : i < n) :
    geneRate n (resultProb stdNormal N (fun z => randomBinomial n p sd z po reals)) many i =
      (∑ k ∈ Finset.range (n + 1), stdNormal.real (normalCore n p sd k) * k) / (∑ k ∈ Finset.range (n + 1), stdNormal.real (normalCore n p sd k)) / n := by
  rw [geneRate_eq n hn _ many i hi]
  congr 1
  rw [Finset.sum_div]
  apply Finset.sum_congr rfl
  intro k hk
  rw [Finset.mem_range] at hk
  rw [normal_law n p sd hp po reals N hN k (by omega), cell_core n p sd hsd k (by omega), acc_sum]
  have : ∑ k ∈ Finset.range (n + 1), stdNormal.real (normalCell n p sd k) = ∑ k ∈ Finset.range (n + 1), stdNormal.real (normalCore n p sd k) := by
    apply Finset.sum_congr rfl
    intro j hj
    rw [Finset.mem_range] at hj
    exact cell_core n p sd hsd j (by omega)
  rw [this]
  ring

theorem binomialDev_pos (n : Nat) (p : ℝ) (hp : UsesNormal n p) : 0 < binomialDev n p := by
  obtain ⟨h0, h1, h5, _⟩ := hp
  apply Real.sqrt_pos.mpr
  have : (0 : ℝ) < n := by exact_mod_cast (by omega : 0 < n)
  have : 0 < 1 - p := by linarith
  positivity

/-- Weights that are symmetric around `m / 2`. -/
theorem symm_sum (a : Nat → ℝ) (m : Nat) (hs : ∀ k ≤ m, a (m - k) = a k) : ∑ k ∈ Finset.range (m + 1), a k * (2 * (k : ℝ) - m) = 0 := by
  have h := Finset.sum_range_reflect (fun k => a k * (2 * (k : ℝ) - m)) (m + 1)
  have h2 : ∑ j ∈ Finset.range (m + 1), a (m + 1 - 1 - j) * (2 * ((m + 1 - 1 - j : Nat) : ℝ) - m) = ∑ j ∈ Finset.range (m + 1), -(a j * (2 * (j : ℝ) - m)) := by
    apply Finset.sum_congr rfl
    intro j hj
    rw [Finset.mem_range] at hj
    rw [Nat.add_sub_cancel, hs j (by omega), Nat.cast_sub (by omega)]
    ring
  rw [h2, Finset.sum_neg_distrib] at h
  linarith

/-- **C80 (mutation rates, normal approximation).** When the number of the mutated genes is drawn from a normal distribution and `2 n pm` is an integer, the probability that a gene is mutated is greater than the mutation
rate if the rate is less than 1/2, it is the mutation rate if this is 1/2, and less than the mutation rate if that is greater than 1/2. -/
theorem C80_normal_rate_biased (n : Nat) (hn : n < 65536) (pm : ℝ) (hp : UsesNormal n pm) (m : Nat) (hm : 2 * (n * pm) = m) (po : List Nat) (reals : List ℝ) (N : Nat) (hN : 0 < N)
    (many : Nat → Bool) (i : Nat) (hi : i < n) :
    (pm < 1 / 2 → pm < geneRate n (resultProb stdNormal N (fun z => randomBinomial n pm (binomialDev n pm) z po reals)) many i) ∧
    (pm = 1 / 2 → geneRate n (resultProb stdNormal N (fun z => randomBinomial n pm (binomialDev n pm) z po reals)) many i = pm) ∧
    (1 / 2 < pm → geneRate n (resultProb stdNormal N (fun z => randomBinomial n pm (binomialDev n pm) z po reals)) many i < pm) := by
  have hsd := binomialDev_pos n pm hp
  rw [normal_rate n hn pm _ hsd hp po reals N hN many i hi]
  have hn0 : (0 : ℝ) < n := by exact_mod_cast (by omega : 0 < n)
  generalize ha : (fun k => stdNormal.real (normalCore n pm (binomialDev n pm) k)) = a
  have hapos : ∀ k, 0 < a k := fun k => by rw [← ha]; exact core_pos n pm _ hsd k
  have hasym : ∀ k ≤ m, a (m - k) = a k := fun k hk => by rw [← ha]; exact core_symm n pm _ m hm k hk
  have e : ∀ k, stdNormal.real (normalCore n pm (binomialDev n pm) k) = a k := fun k => by rw [← ha]
  simp only [e]
  have hA : 0 < ∑ k ∈ Finset.range (n + 1), a k := Finset.sum_pos (fun k _ => hapos k) ⟨0, by simp⟩
  have key : ∑ k ∈ Finset.range (n + 1), a k * (2 * (k : ℝ) - m) = 2 * (∑ k ∈ Finset.range (n + 1), a k * k) - 2 * n * pm * ∑ k ∈ Finset.range (n + 1), a k := by
    rw [Finset.mul_sum, Finset.mul_sum, ← Finset.sum_sub_distrib]
    apply Finset.sum_congr rfl
    intro k _
    rw [← hm]
    ring
  have hz := symm_sum a m hasym
  refine ⟨fun h => ?_, fun h => ?_, fun h => ?_⟩
  · have hmn : m < n := by
      have : (m : ℝ) < n := by rw [← hm]; nlinarith
      exact_mod_cast this
    rw [← Finset.sum_range_add_sum_Ico _ (by omega : m + 1 ≤ n + 1), hz, zero_add] at key
    have hpos : 0 < ∑ k ∈ Finset.Ico (m + 1) (n + 1), a k * (2 * (k : ℝ) - m) := by
      apply Finset.sum_pos
      · intro k hk
        rw [Finset.mem_Ico] at hk
        have : (m : ℝ) + 1 ≤ k := by exact_mod_cast hk.1
        have hm0 : (0 : ℝ) ≤ m := Nat.cast_nonneg m
        exact mul_pos (hapos k) (by linarith)
      · exact ⟨n, by simp; omega⟩
    rw [lt_div_iff₀ hn0, lt_div_iff₀ hA]
    nlinarith
  · have hmn : m = n := by
      have : (m : ℝ) = n := by rw [← hm, h]; ring
      exact_mod_cast this
    rw [hmn] at hz key
    rw [hz] at key
    rw [div_eq_iff hn0.ne', div_eq_iff hA.ne']
    linarith
  · have hmn : n < m := by
      have : (n : ℝ) < m := by rw [← hm]; nlinarith
      exact_mod_cast this
    have hm2 : m < 2 * n := by
      have : (m : ℝ) < 2 * n := by
        rw [← hm]
        nlinarith [hp.2.1]
      exact_mod_cast this
    have hz2 : ∑ k ∈ Finset.Ico (m - n) (n + 1), a k * (2 * (k : ℝ) - m) = 0 := by
      have h1 := symm_sum (fun k => a (k + (m - n))) (2 * n - m) (by
        intro k hk
        show a (2 * n - m - k + (m - n)) = a (k + (m - n))
        rw [← hasym (k + (m - n)) (by omega)]
        congr 1
        omega)
      rw [Finset.sum_Ico_eq_sum_range]
      rw [← h1]
      have : n + 1 - (m - n) = 2 * n - m + 1 := by omega
      rw [this]
      apply Finset.sum_congr rfl
      intro k _
      rw [Nat.add_comm (m - n) k, Nat.cast_add, Nat.cast_sub (by omega : n ≤ m), Nat.cast_sub (by omega : m ≤ 2 * n)]
      push_cast
      ring
    rw [← Finset.sum_range_add_sum_Ico _ (by omega : m - n ≤ n + 1), hz2, add_zero] at key
    have hneg : ∑ k ∈ Finset.range (m - n), a k * (2 * (k : ℝ) - m) < 0 := by
      apply Finset.sum_neg
      · intro k hk
        rw [Finset.mem_range] at hk
        have : 2 * (k : ℝ) < m := by exact_mod_cast (by omega : 2 * k < m)
        exact mul_neg_of_pos_of_neg (hapos k) (by linarith)
      · exact ⟨0, by simp; omega⟩
    rw [div_lt_iff₀ hn0, div_lt_iff₀ hA]
    nlinarith

/-- **C80 (mutation rates, violated).** With 10 genes and the mutation rate 1/5, every gene is mutated with a probability greater than 1/5. -/
theorem C80_normal_rate_violated : UsesNormal 10 (1 / 5) ∧
    ∀ (po : List Nat) (reals : List ℝ) (N : Nat), 0 < N → ∀ (many : Nat → Bool) (i : Nat), i < 10 →
      1 / 5 < geneRate 10 (resultProb stdNormal N (fun z => randomBinomial 10 (1 / 5) (binomialDev 10 (1 / 5)) z po reals)) many i := by
  have h : UsesNormal 10 (1 / 5) := ⟨by norm_num, by norm_num, by norm_num, by norm_num⟩
  refine ⟨h, fun po reals N hN many i hi => ?_⟩
  exact (C80_normal_rate_biased 10 (by norm_num) (1 / 5) h 4 (by norm_num) po reals N hN many i hi).1 (by norm_num)

/-! ### A bound of the difference -/

theorem integrable_id_std : Integrable (fun z : ℝ => z) stdNormal := by
  have := memLp_id_gaussianReal (μ := 0) (v := 1) 1
  have h : MemLp (fun z : ℝ => z) 1 stdNormal := this
  exact memLp_one_iff_integrable.mp h

theorem integrable_sq_std : Integrable (fun z : ℝ => z ^ 2) stdNormal := by
  have := memLp_id_gaussianReal (μ := 0) (v := 1) 2
  exact this.integrable_sq

theorem integral_sq_std : ∫ z, z ^ 2 ∂stdNormal = 1 := by
  have h := variance_fun_id_gaussianReal (μ := 0) (v := 1)
  rw [variance_of_integral_eq_zero aemeasurable_id' (integral_id_gaussianReal)] at h
  simpa using h

theorem setIntegral_neg_std (g : ℝ → ℝ) (s : Set ℝ) : ∫ z in (fun x : ℝ => -x) ⁻¹' s, g (-z) ∂stdNormal = ∫ z in s, g z ∂stdNormal :=
  stdNormal_neg.setIntegral_preimage_emb (MeasurableEquiv.neg ℝ).measurableEmbedding g s

theorem tail_sq (c : ℝ) (hc : 0 < c) : ∫ z in Set.Ici c, z ^ 2 ∂stdNormal ≤ 1 / 2 := by
  have h1 := setIntegral_neg_std (fun z => z ^ 2) (Set.Ici c)
  simp only [neg_sq] at h1
  have hd : Disjoint (Set.Ici c) ((fun x : ℝ => -x) ⁻¹' Set.Ici c) := by
    rw [Set.disjoint_left]
    intro z hz hz2
    simp only [Set.mem_Ici, Set.mem_preimage] at hz hz2
    linarith
  have h2 := setIntegral_union hd (measurableSet_Ici.preimage measurable_neg) (integrable_sq_std.integrableOn) (integrable_sq_std.integrableOn)
  have h3 : ∫ z in Set.Ici c ∪ (fun x : ℝ => -x) ⁻¹' Set.Ici c, z ^ 2 ∂stdNormal ≤ ∫ z, z ^ 2 ∂stdNormal :=
    setIntegral_le_integral integrable_sq_std (Filter.Eventually.of_forall (fun z => sq_nonneg z))
  rw [integral_sq_std] at h3
  linarith

/-- The expected value and the probability of a tail. -/
theorem tail_bounds (c : ℝ) (hc : 0 < c) : 0 ≤ ∫ z in Set.Ici c, z ∂stdNormal ∧ ∫ z in Set.Ici c, z ∂stdNormal ≤ 1 / (2 * c) ∧ stdNormal.real (Set.Ici c) ≤ 1 / (2 * c ^ 2) := by
  have hsq := tail_sq c hc
  refine ⟨setIntegral_nonneg measurableSet_Ici (fun z hz => le_trans hc.le hz), ?_, ?_⟩
  · have h : ∫ z in Set.Ici c, z ∂stdNormal ≤ ∫ z in Set.Ici c, z ^ 2 / c ∂stdNormal := by
      apply setIntegral_mono_on integrable_id_std.integrableOn (integrable_sq_std.div_const c).integrableOn measurableSet_Ici
      intro z hz
      rw [Set.mem_Ici] at hz
      rw [le_div_iff₀ hc]
      nlinarith
    rw [integral_div] at h
    refine h.trans ?_
    rw [div_le_div_iff₀ hc (by positivity)]
    nlinarith
  · have h : ∫ z in Set.Ici c, (1 : ℝ) ∂stdNormal ≤ ∫ z in Set.Ici c, z ^ 2 / c ^ 2 ∂stdNormal := by
      apply setIntegral_mono_on (integrable_const 1).integrableOn (integrable_sq_std.div_const (c ^ 2)).integrableOn measurableSet_Ici
      intro z hz
      rw [Set.mem_Ici] at hz
      rw [le_div_iff₀ (by positivity)]
      nlinarith
    rw [integral_div, setIntegral_const, smul_eq_mul, mul_one] at h
    refine h.trans ?_
    rw [div_le_div_iff₀ (by positivity) (by positivity)]
    nlinarith [sq_nonneg c]

theorem preimage_neg_Ici (c : ℝ) : (fun x : ℝ => -x) ⁻¹' Set.Ici c = Set.Iic (-c) := by
  ext z
  simp only [Set.mem_preimage, Set.mem_Ici, Set.mem_Iic]
  constructor <;> intro h <;> linarith

/-- The draws between two bounds. -/
theorem middle_bounds (a b : ℝ) (ha : 0 < a) (hb : 0 < b) :
    |∫ z in Set.Ioo (-a) b, z ∂stdNormal| ≤ max (1 / (2 * a)) (1 / (2 * b)) ∧ 1 - 1 / (2 * a ^ 2) - 1 / (2 * b ^ 2) ≤ stdNormal.real (Set.Ioo (-a) b) := by
  obtain ⟨ha1, ha2, ha3⟩ := tail_bounds a ha
  obtain ⟨hb1, hb2, hb3⟩ := tail_bounds b hb
  have hc : (Set.Ioo (-a) b)ᶜ = Set.Iic (-a) ∪ Set.Ici b := by
    ext z
    simp only [Set.mem_compl_iff, Set.mem_Ioo, Set.mem_union, Set.mem_Iic, Set.mem_Ici, not_and_or, not_lt]
  have hd : Disjoint (Set.Iic (-a)) (Set.Ici b) := by
    rw [Set.disjoint_left]
    intro z hz hz2
    rw [Set.mem_Iic] at hz
    rw [Set.mem_Ici] at hz2
    linarith
  constructor
  · have h1 := integral_add_compl (measurableSet_Ioo (a := -a) (b := b)) integrable_id_std
    rw [integral_id_gaussianReal, hc, setIntegral_union hd measurableSet_Ici integrable_id_std.integrableOn integrable_id_std.integrableOn] at h1
    have h2 := setIntegral_neg_std (fun z => z) (Set.Ici a)
    rw [preimage_neg_Ici, integral_neg] at h2
    rw [abs_le]
    have m1 := le_max_left (1 / (2 * a)) (1 / (2 * b))
    have m2 := le_max_right (1 / (2 * a)) (1 / (2 * b))
    constructor <;> linarith
  · have h1 := measureReal_add_measureReal_compl (μ := stdNormal) (measurableSet_Ioo (a := -a) (b := b))
    have h2 := stdNormal_neg.measureReal_preimage (measurableSet_Ici (a := a)).nullMeasurableSet
    rw [preimage_neg_Ici] at h2
    have h3 := measureReal_union_le (μ := stdNormal) (Set.Iic (-a)) (Set.Ici b)
    rw [hc, probReal_univ] at h1
    linarith

/-- **C80 (mutation rates, bound of the difference).** When the number of the mutated genes is drawn from a normal distribution, the probability that a gene is mutated differs from the mutation rate by less than `3 / (2 n)`. -/
theorem C80_normal_rate_partial (n : Nat) (hn : n < 65536) (pm : ℝ) (hp : UsesNormal n pm) (po : List Nat) (reals : List ℝ) (N : Nat) (hN : 0 < N) (many : Nat → Bool) (i : Nat) (hi : i < n) :
    |geneRate n (resultProb stdNormal N (fun z => randomBinomial n pm (binomialDev n pm) z po reals)) many i - pm| < 3 / (2 * n) := by
  have hsd := binomialDev_pos n pm hp
  obtain ⟨h0, h1, h5, hc⟩ := id hp
  have hn0 : (0 : ℝ) < n := by exact_mod_cast (by omega : 0 < n)
  have hsq : binomialDev n pm ^ 2 = n * pm * (1 - pm) := by
    have : 0 < 1 - pm := by linarith
    exact Real.sq_sqrt (by positivity)
  rw [geneRate_eq n hn _ many i hi]
  have e : ∑ k ∈ Finset.range (n + 1), resultProb stdNormal N (fun z => randomBinomial n pm (binomialDev n pm) z po reals) k * k =
      (∑ k ∈ Finset.range (n + 1), stdNormal.real (normalCell n pm (binomialDev n pm) k) * k) / stdNormal.real (normalAcc n pm (binomialDev n pm)) := by
    rw [Finset.sum_div]
    apply Finset.sum_congr rfl
    intro k hk
    rw [Finset.mem_range] at hk
    rw [normal_law n pm _ hp po reals N hN k (by omega)]
    ring
  rw [e]
  generalize hsdg : binomialDev n pm = sd at *
  have hpq : 0 < 1 - pm := by linarith
  have hnp : 0 < n * pm := by positivity
  have hnq : 0 < n * (1 - pm) := by positivity
  -- the accepted draws
  have hacc : normalAcc n pm sd = Set.Ioo (-((n * pm + 1 / 2) / sd)) ((n * (1 - pm) + 1 / 2) / sd) := by
    ext z
    simp only [normalAcc, Set.mem_setOf_eq, Set.mem_Ioo]
    rw [lt_div_iff₀ hsd, show -((n * pm + 1 / 2) / sd) = (-(n * pm + 1 / 2)) / sd by ring, div_lt_iff₀ hsd]
    constructor
    · rintro ⟨g1, g2⟩; constructor <;> nlinarith
    · rintro ⟨g1, g2⟩; constructor <;> nlinarith
  obtain ⟨hT, hZ⟩ := middle_bounds ((n * pm + 1 / 2) / sd) ((n * (1 - pm) + 1 / 2) / sd) (by positivity) (by positivity)
  rw [← hacc] at hT hZ
  set Z := stdNormal.real (normalAcc n pm sd) with hZdef
  set T := ∫ z in normalAcc n pm sd, z ∂stdNormal with hTdef
  -- bounds
  have hsa : sd ^ 2 < n * pm + 1 / 2 := by rw [hsq]; nlinarith
  have hsb : sd ^ 2 < n * (1 - pm) + 1 / 2 := by rw [hsq]; nlinarith
  have hsa2 : sd ^ 2 ≤ n * pm := by rw [hsq]; nlinarith
  have hsb2 : sd ^ 2 ≤ n * (1 - pm) := by rw [hsq]; nlinarith
  have hTs : sd * |T| < 1 / 2 := by
    have g1 : sd * (1 / (2 * ((n * pm + 1 / 2) / sd))) < 1 / 2 := by
      have : sd * (1 / (2 * ((n * pm + 1 / 2) / sd))) = sd ^ 2 / (2 * (n * pm + 1 / 2)) := by field_simp
      rw [this, div_lt_iff₀ (by positivity)]
      linarith
    have g2 : sd * (1 / (2 * ((n * (1 - pm) + 1 / 2) / sd))) < 1 / 2 := by
      have : sd * (1 / (2 * ((n * (1 - pm) + 1 / 2) / sd))) = sd ^ 2 / (2 * (n * (1 - pm) + 1 / 2)) := by field_simp
      rw [this, div_lt_iff₀ (by positivity)]
      linarith
    have g3 := mul_le_mul_of_nonneg_left hT hsd.le
    rcases max_choice (1 / (2 * ((n * pm + 1 / 2) / sd))) (1 / (2 * ((n * (1 - pm) + 1 / 2) / sd))) with hmx | hmx <;> rw [hmx] at g3 <;> linarith
  have hquarter : ∀ x : ℝ, 0 < x → sd ^ 2 ≤ x → 1 / (2 * ((x + 1 / 2) / sd) ^ 2) ≤ 1 / 4 := by
    intro x hx hle
    have : 1 / (2 * ((x + 1 / 2) / sd) ^ 2) = sd ^ 2 / (2 * (x + 1 / 2) ^ 2) := by field_simp
    rw [this, div_le_iff₀ (by positivity)]
    nlinarith [sq_nonneg (x - 1 / 2)]
  have hZ2 : 1 / 2 ≤ Z := by
    have := hquarter _ hnp hsa2
    have := hquarter _ hnq hsb2
    linarith
  -- rounding
  have hI : IntegrableOn (fun z : ℝ => sd * z + n * pm) (normalAcc n pm sd) stdNormal := ((integrable_id_std.const_mul sd).add (integrable_const _)).integrableOn
  have hmean : ∫ z in normalAcc n pm sd, (sd * z + n * pm) ∂stdNormal = sd * T + n * pm * Z := by
    rw [integral_add (integrable_id_std.const_mul sd).integrableOn (integrable_const _).integrableOn, integral_const_mul, setIntegral_const, smul_eq_mul]
    ring
  have hU : normalAcc n pm sd = ⋃ k ∈ Finset.range (n + 1), normalCell n pm sd k := by
    ext z
    simp only [Set.mem_iUnion, Finset.mem_range, exists_prop]
    constructor
    · intro h
      have g1 := h.1
      have g2 := h.2
      have hk : 0 ≤ ⌊sd * z + n * pm + 1 / 2⌋ := Int.floor_nonneg.mpr (by linarith)
      obtain ⟨k, hk'⟩ := Int.eq_ofNat_of_zero_le hk
      have g3 := Int.floor_le (sd * z + n * pm + 1 / 2)
      have g4 := Int.lt_floor_add_one (sd * z + n * pm + 1 / 2)
      rw [hk'] at g3 g4
      push_cast at g3 g4
      refine ⟨k, ?_, h, (stdRound_eq_iff _ g1 k).mpr ⟨by linarith, by linarith⟩⟩
      have : (k : ℝ) < n + 1 := by linarith
      exact_mod_cast this
    · rintro ⟨k, _, h⟩
      exact h.1
  have hsplit : ∫ z in normalAcc n pm sd, (sd * z + n * pm) ∂stdNormal = ∑ k ∈ Finset.range (n + 1), ∫ z in normalCell n pm sd k, (sd * z + n * pm) ∂stdNormal := by
    rw [hU]
    apply integral_biUnion_finset
    · intro k hk
      rw [Finset.mem_range] at hk
      exact measurableSet_normalCell n pm sd k (by omega)
    · intro a _ b _ hab
      rw [Function.onFun, Set.disjoint_left]
      rintro z ⟨_, g1⟩ ⟨_, g2⟩
      apply hab
      rw [g1] at g2
      exact_mod_cast g2
    · intro k _
      exact ((integrable_id_std.const_mul sd).add (integrable_const _)).integrableOn
  have hcell : ∀ k ∈ Finset.range (n + 1), |stdNormal.real (normalCell n pm sd k) * k - ∫ z in normalCell n pm sd k, (sd * z + n * pm) ∂stdNormal| ≤ 1 / 2 * stdNormal.real (normalCell n pm sd k) := by
    intro k hk
    rw [Finset.mem_range] at hk
    have hk' : k ≤ n := by omega
    have mk := measurableSet_normalCell n pm sd k hk'
    have g1 : ∫ z in normalCell n pm sd k, (k : ℝ) ∂stdNormal = stdNormal.real (normalCell n pm sd k) * k := by rw [setIntegral_const, smul_eq_mul]
    have hint : Integrable (fun z : ℝ => sd * z + n * pm) (stdNormal.restrict (normalCell n pm sd k)) := ((integrable_id_std.const_mul sd).add (integrable_const _)).integrableOn
    rw [← g1, ← integral_sub (integrable_const _).integrableOn hint]
    have g2 := norm_setIntegral_le_of_norm_le_const (μ := stdNormal) (s := normalCell n pm sd k) (C := 1 / 2) (f := fun z => (k : ℝ) - (sd * z + n * pm)) (measure_lt_top _ _) (by
      intro z hz
      rw [normalCell_eq n pm sd k hk'] at hz
      obtain ⟨_, g3, g4⟩ := hz
      rw [Real.norm_eq_abs, abs_le]
      constructor <;> linarith)
    rw [Real.norm_eq_abs] at g2
    exact g2
  have hdiff : |(∑ k ∈ Finset.range (n + 1), stdNormal.real (normalCell n pm sd k) * k) - (sd * T + n * pm * Z)| ≤ 1 / 2 * Z := by
    rw [← hmean, hsplit, ← Finset.sum_sub_distrib]
    refine (Finset.abs_sum_le_sum_abs _ _).trans ((Finset.sum_le_sum hcell).trans ?_)
    rw [← Finset.mul_sum, hZdef, acc_sum]
  generalize (∑ k ∈ Finset.range (n + 1), stdNormal.real (normalCell n pm sd k) * (k : ℝ)) = M at *
  have hZp : 0 < Z := by linarith
  have hTT : |sd * T| < 1 / 2 := by rw [abs_mul, abs_of_pos hsd]; exact hTs
  rw [abs_lt] at hTT
  rw [abs_le] at hdiff
  have hfin : |M - n * pm * Z| < 3 / 2 * Z := by
    rw [abs_lt]
    constructor <;> linarith
  have hval : M / Z / n - pm = (M - n * pm * Z) / (Z * n) := by field_simp
  rw [hval, abs_div, abs_of_pos (by positivity : 0 < Z * n), div_lt_div_iff₀ (by positivity) (by positivity)]
  nlinarith

end Gapp.Props
