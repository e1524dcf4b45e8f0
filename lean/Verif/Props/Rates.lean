import Mathlib.Probability.Distributions.Gaussian.Real
import Mathlib.Probability.Distributions.Poisson.Basic
import Mathlib.Algebra.Order.Floor.Ring
import Mathlib.Data.Set.Card
import Mathlib.Data.Finset.Powerset
import Mathlib.Tactic.FieldSimp
import Verif.Model.Rates
import Verif.Proofs.Draws
import Verif.Props.Uniform

/-!
# C80: crossover and mutation rates
-/

namespace Gapp.Props

open Gapp.Model Gapp.Spec Gapp.Proofs.Draws MeasureTheory

/-! ### Operators that are applied to whole candidates -/

theorem ncard_shift_lt (c : Nat) (hc : c ≤ 2 ^ 53) : Set.ncard {x : BitVec 64 | (x >>> 11).toNat < c} = 2048 * c := by
  have e : {x : BitVec 64 | (x >>> 11).toNat < c} = (fun k : Nat => BitVec.ofNat 64 k) '' (Finset.range (2048 * c) : Set Nat) := by
    ext x
    simp only [Set.mem_setOf_eq, Set.mem_image, Finset.coe_range, Set.mem_Iio, BitVec.toNat_ushiftRight, Nat.shiftRight_eq_div_pow]
    constructor
    · intro h
      exact ⟨x.toNat, by omega, by simp⟩
    · rintro ⟨k, hk, rfl⟩
      rw [BitVec.toNat_ofNat, Nat.mod_eq_of_lt (by omega)]
      omega
  rw [e, Set.ncard_image_of_injOn, Set.ncard_coe_finset, Finset.card_range]
  intro a ha b hb hab
  simp only [Finset.coe_range, Set.mem_Iio] at ha hb
  have := congrArg BitVec.toNat hab
  simp only [BitVec.toNat_ofNat] at this
  omega

theorem outputReal_eq (x : BitVec 64) : outputReal x = some (((x >>> 11).toNat : ℝ) / 2 ^ 53) := by
  simp [outputReal, randomReal, exponentBits]

/-- The share of the outputs of the generator for which an operator is applied. All outputs are equally likely. -/
noncomputable def appliedShare (applies : BitVec 64 → Option Bool) : ℝ := (Set.ncard {x | applies x = some true} : ℝ) / 2 ^ 64

theorem share_lt (pc : ℝ) (h0 : 0 ≤ pc) (h1 : pc ≤ 1) :
    (Set.ncard {x : BitVec 64 | (((x >>> 11).toNat : ℝ) / 2 ^ 53) < pc} : ℝ) / 2 ^ 64 = (⌈pc * 2 ^ 53⌉₊ : ℝ) / 2 ^ 53 := by
  have e : {x : BitVec 64 | (((x >>> 11).toNat : ℝ) / 2 ^ 53) < pc} = {x : BitVec 64 | (x >>> 11).toNat < ⌈pc * 2 ^ 53⌉₊} := by
    ext x
    simp only [Set.mem_setOf_eq]
    rw [div_lt_iff₀ (by positivity), Nat.lt_ceil]
  have hc : ⌈pc * 2 ^ 53⌉₊ ≤ 2 ^ 53 := by
    apply Nat.ceil_le.mpr
    push_cast
    nlinarith
  rw [e, ncard_shift_lt _ hc]
  push_cast
  rw [show (2 : ℝ) ^ 64 = 2048 * 2 ^ 53 by norm_num, mul_div_mul_left _ _ (by norm_num)]

theorem ceil_share (pc : ℝ) (h0 : 0 ≤ pc) : pc ≤ (⌈pc * 2 ^ 53⌉₊ : ℝ) / 2 ^ 53 ∧ (⌈pc * 2 ^ 53⌉₊ : ℝ) / 2 ^ 53 < pc + 1 / 2 ^ 53 := by
  constructor
  · rw [le_div_iff₀ (by positivity)]
    exact Nat.le_ceil _
  · rw [div_lt_iff₀ (by positivity), add_mul, div_mul_cancel₀ _ (by positivity)]
    exact Nat.ceil_lt_add_one (by positivity)

/-- **C80 (crossover rate).** The probability that a crossover is performed is the crossover rate, up to an error below 2^-53: it is exact for all multiples of 2^-53, so it is never
performed with the rate 0, and always with the rate 1. The same holds for the mutation rate of `Inversion`. -/
theorem C80_crossover_rate (pc : ℝ) (h0 : 0 ≤ pc) (h1 : pc ≤ 1) :
    (pc ≤ appliedShare (crossoverApplies pc) ∧ appliedShare (crossoverApplies pc) < pc + 1 / 2 ^ 53) ∧
    (∀ m : Nat, pc = m / 2 ^ 53 → appliedShare (crossoverApplies pc) = pc) ∧
    appliedShare (inversionApplies pc) = appliedShare (crossoverApplies pc) := by
  have e1 : appliedShare (crossoverApplies pc) = (⌈pc * 2 ^ 53⌉₊ : ℝ) / 2 ^ 53 := by
    rw [← share_lt pc h0 h1]
    unfold appliedShare
    congr 3
    ext x
    simp [crossoverApplies, outputReal_eq]
  have e2 : appliedShare (inversionApplies pc) = (⌈pc * 2 ^ 53⌉₊ : ℝ) / 2 ^ 53 := by
    rw [← share_lt pc h0 h1]
    unfold appliedShare
    congr 3
    ext x
    simp [inversionApplies, outputReal_eq]
  rw [e1, e2]
  refine ⟨ceil_share pc h0, ?_, rfl⟩
  rintro m rfl
  rw [div_mul_cancel₀ _ (by positivity), Nat.ceil_natCast]

/-- With the rates 0, 1 and 3/4 the probability is exact. -/
example : appliedShare (crossoverApplies (0 : ℝ)) = 0 ∧ appliedShare (crossoverApplies (1 : ℝ)) = 1 ∧ appliedShare (crossoverApplies (3 / 4 : ℝ)) = 3 / 4 :=
  ⟨(C80_crossover_rate 0 (by norm_num) (by norm_num)).2.1 0 (by norm_num), (C80_crossover_rate 1 (by norm_num) (by norm_num)).2.1 (2 ^ 53) (by norm_num),
    (C80_crossover_rate (3 / 4) (by norm_num) (by norm_num)).2.1 (3 * 2 ^ 51) (by norm_num)⟩

/-- **C80 (mutation rates of permutations, partial).** The probability that `Swap2`, `Swap3`, `Shuffle` and `Shift` change a chromosome is greater than a mutation rate below 1, by at most 2^-53,
and 1 for the rate 1. -/
theorem C80_permutation_rate_partial (pm : ℝ) (h0 : 0 ≤ pm) (h1 : pm ≤ 1) :
    (pm < 1 → pm < appliedShare (permutationApplies pm) ∧ appliedShare (permutationApplies pm) ≤ pm + 1 / 2 ^ 53) ∧ (pm = 1 → appliedShare (permutationApplies pm) = 1) := by
  have e : ∀ c : Nat, c = min (⌊pm * 2 ^ 53⌋₊ + 1) (2 ^ 53) → appliedShare (permutationApplies pm) = (c : ℝ) / 2 ^ 53 := by
    intro c hc
    have hs : {x : BitVec 64 | permutationApplies pm x = some true} = {x : BitVec 64 | (x >>> 11).toNat < c} := by
      ext x
      simp only [permutationApplies, outputReal_eq, Option.map_some, Option.some.injEq, decide_eq_true_eq, Set.mem_setOf_eq]
      rw [div_le_iff₀ (by positivity), ← Nat.le_floor_iff (by positivity)]
      have : (x >>> 11).toNat < 2 ^ 53 := by
        rw [BitVec.toNat_ushiftRight, Nat.shiftRight_eq_div_pow]
        have := x.isLt
        omega
      omega
    unfold appliedShare
    rw [hs, ncard_shift_lt c (by omega)]
    push_cast
    rw [show (2 : ℝ) ^ 64 = 2048 * 2 ^ 53 by norm_num, mul_div_mul_left _ _ (by norm_num)]
  constructor
  · intro hlt
    have hfl : ⌊pm * 2 ^ 53⌋₊ < 2 ^ 53 := by
      apply (Nat.floor_lt (by positivity)).mpr
      push_cast
      nlinarith
    rw [e (⌊pm * 2 ^ 53⌋₊ + 1) (by omega)]
    have h2 := Nat.floor_le (show 0 ≤ pm * 2 ^ 53 by positivity)
    have h3 := Nat.lt_floor_add_one (pm * 2 ^ 53)
    push_cast
    constructor
    · rw [lt_div_iff₀ (by positivity)]
      exact h3
    · rw [div_le_iff₀ (by positivity), add_mul, div_mul_cancel₀ _ (by positivity)]
      linarith
  · rintro rfl
    have hfl : ⌊(1 : ℝ) * 2 ^ 53⌋₊ = 2 ^ 53 := by
      rw [one_mul, show (2 : ℝ) ^ 53 = ((2 ^ 53 : Nat) : ℝ) by norm_num, Nat.floor_natCast]
    rw [e (2 ^ 53) (by omega)]
    norm_num

/-- **C80 (mutation rates of permutations, violated).** With the mutation rate 0, a permutation is still changed with the probability 2^-53. -/
theorem C80_permutation_zero_violated : appliedShare (permutationApplies (0 : ℝ)) = 1 / 2 ^ 53 := by
  have hs : {x : BitVec 64 | permutationApplies (0 : ℝ) x = some true} = {x : BitVec 64 | (x >>> 11).toNat < 1} := by
    ext x
    simp only [permutationApplies, outputReal_eq, Option.map_some, Option.some.injEq, decide_eq_true_eq, Set.mem_setOf_eq]
    rw [div_le_iff₀ (by positivity), zero_mul]
    constructor
    · intro h
      have : (x >>> 11).toNat = 0 := by exact_mod_cast le_antisymm h (Nat.cast_nonneg _)
      omega
    · intro h
      have : (x >>> 11).toNat = 0 := by omega
      rw [this]
      norm_num
  unfold appliedShare
  rw [hs, ncard_shift_lt 1 (by norm_num)]
  norm_num

/-! ### Operators that are applied to genes -/

/-- The share of the sequences of draws for which `sampleUnique(0, n, count)` returns the number `i`, among all of the equally likely sequences. -/
noncomputable def chosenShare (n count : Nat) (selectMany : Bool) (i : Nat) : ℝ :=
  (Set.ncard {draws ∈ SampleInputs 0 n count selectMany | ∃ numbers, sampleUnique 0 n count selectMany draws = some numbers ∧ (i : Int) ∈ numbers} : ℝ) /
    (Set.ncard (SampleInputs 0 n count selectMany) : ℝ)

/-- The probability that the gene `i` of a chromosome of `n` genes is mutated, if the number of mutated genes is `k` with the probability `law k`. `selectMany k` tells which method
`sampleUnique` uses for `k` genes. -/
noncomputable def geneRate (n : Nat) (law : Nat → ℝ) (selectMany : Nat → Bool) (i : Nat) : ℝ :=
  ∑ k ∈ Finset.range (n + 1), law k * chosenShare n k (selectMany k) i

theorem sampleInputs_finite (n count : Nat) (hc : count ≤ n) (hn : n < 65536) (many : Bool) : (SampleInputs 0 n count many).Finite := by
  have h := C76_sample_uniform_partial 0 n count (by omega) (by omega) many ((Finset.Ico (0 : Int) count).toList) (by
    refine ⟨by simp, Finset.nodup_toList _, ?_⟩
    intro x hx
    rw [Finset.mem_toList, Finset.mem_Ico] at hx
    omega)
  exact Set.finite_of_ncard_pos h.2

theorem chosenShare_eq (n count : Nat) (hc : count ≤ n) (hn : n < 65536) (many : Bool) (i : Nat) (hi : i < n) : chosenShare n count many i = (count : ℝ) / n := by
  classical
  have hfin := sampleInputs_finite n count hc hn many
  let D := hfin.toFinset
  let numbers : List Int → Finset Int := fun d => ((sampleUnique 0 n count many d).getD []).toFinset
  let R : Finset Int := Finset.Ico 0 n
  have hR : R.card = n := by simp [R]
  have hD : D.card = (SampleInputs 0 n count many).ncard := (Set.ncard_eq_toFinset_card _ hfin).symm
  have hmemD : ∀ d, d ∈ D ↔ d ∈ SampleInputs 0 n count many := fun d => Set.Finite.mem_toFinset _
  have hsample : ∀ d ∈ D, ∃ l, sampleUnique 0 n count many d = some l ∧ IsSample 0 n count l := by
    intro d hd
    have := (hmemD d).mp hd
    exact C35_sample_unique_partial 0 n count (by omega) (by omega) many d this.1 this.2
  have hfib : ∀ S ∈ R.powersetCard count, (D.filter (fun d => numbers d = S)).card * n.choose count = D.card := by
    intro S hS
    rw [Finset.mem_powersetCard] at hS
    have h := (C76_sample_uniform_partial 0 n count (by omega) (by omega) many S.toList (by
      refine ⟨by simp [hS.2], Finset.nodup_toList _, ?_⟩
      intro x hx
      have := hS.1 (Finset.mem_toList.mp hx)
      simpa [R] using this)).1
    rw [Int.sub_zero, Int.toNat_natCast, ← hD] at h
    rw [← h]
    congr 1
    rw [← Set.ncard_coe_finset]
    congr 1
    ext d
    simp only [Finset.coe_filter, Set.mem_setOf_eq, hmemD]
    constructor
    · rintro ⟨h1, h2⟩
      obtain ⟨l, hl, hls⟩ := hsample d ((hmemD d).mpr h1)
      refine ⟨h1, l, hl, ?_⟩
      simp only [numbers, hl, Option.getD_some] at h2
      exact List.perm_of_nodup_nodup_toFinset_eq hls.2.1 (Finset.nodup_toList _) (by rw [h2, Finset.toList_toFinset])
    · rintro ⟨h1, l, hl, hp⟩
      refine ⟨h1, ?_⟩
      simp only [numbers, hl, Option.getD_some]
      rw [List.toFinset_eq_of_perm _ _ hp, Finset.toList_toFinset]
  have hmaps : ∀ d ∈ D.filter (fun d => (i : Int) ∈ numbers d), numbers d ∈ (R.powersetCard count).filter (fun S => (i : Int) ∈ S) := by
    intro d hd
    rw [Finset.mem_filter] at hd ⊢
    obtain ⟨l, hl, hls⟩ := hsample d hd.1
    refine ⟨?_, hd.2⟩
    rw [Finset.mem_powersetCard]
    simp only [numbers, hl, Option.getD_some]
    refine ⟨?_, by rw [List.toFinset_card_of_nodup hls.2.1, hls.1]⟩
    intro x hx
    rw [List.mem_toFinset] at hx
    have := hls.2.2 x hx
    simpa [R] using this
  have hcard := Finset.card_eq_sum_card_fiberwise hmaps
  have hcount : (D.filter (fun d => (i : Int) ∈ numbers d)).card * n.choose count = ((R.powersetCard count).filter (fun S => (i : Int) ∈ S)).card * D.card := by
    rw [hcard, Finset.sum_mul, ← smul_eq_mul (a := ((R.powersetCard count).filter (fun S => (i : Int) ∈ S)).card), ← Finset.sum_const]
    apply Finset.sum_congr rfl
    intro S hS
    rw [Finset.mem_filter] at hS
    rw [← hfib S hS.1]
    congr 2
    ext d
    simp only [Finset.mem_filter]
    constructor
    · rintro ⟨⟨h1, -⟩, h3⟩; exact ⟨h1, h3⟩
    · rintro ⟨h1, h3⟩; exact ⟨⟨h1, h3 ▸ hS.2⟩, h3⟩
  have hiR : (i : Int) ∈ R := by simp [R]; omega
  have hnot : (R.powersetCard count).filter (fun S => ¬ (i : Int) ∈ S) = (R.erase (i : Int)).powersetCard count := by
    ext S
    simp only [Finset.mem_filter, Finset.mem_powersetCard, Finset.subset_erase]
    tauto
  have hsplit := Finset.card_filter_add_card_filter_not (s := R.powersetCard count) (fun S => (i : Int) ∈ S)
  rw [hnot, Finset.card_powersetCard, Finset.card_powersetCard, Finset.card_erase_of_mem hiR, hR] at hsplit
  obtain ⟨n', rfl⟩ : ∃ n', n = n' + 1 := ⟨n - 1, by omega⟩
  have hid := Nat.choose_mul_succ_eq n' count
  rw [Nat.add_sub_cancel] at hsplit
  have hDpos : 0 < D.card := by
    have hp := hfib ((Finset.Ico (0 : Int) count)) (by
      rw [Finset.mem_powersetCard]
      refine ⟨?_, by simp⟩
      intro x hx
      rw [Finset.mem_Ico] at hx
      simp only [R, Finset.mem_Ico]
      omega)
    have h2 := (C76_sample_uniform_partial 0 (n' + 1 : Nat) count (by omega) (by omega) many ((Finset.Ico (0 : Int) count).toList) (by
      refine ⟨by simp, Finset.nodup_toList _, ?_⟩
      intro x hx
      rw [Finset.mem_toList, Finset.mem_Ico] at hx
      omega)).2
    rw [hD]
    exact h2
  have hchoose : 0 < (n' + 1).choose count := Nat.choose_pos hc
  have hnum : (Set.ncard {draws ∈ SampleInputs 0 (n' + 1 : Nat) count many | ∃ numbers, sampleUnique 0 (n' + 1 : Nat) count many draws = some numbers ∧ (i : Int) ∈ numbers}) =
      (D.filter (fun d => (i : Int) ∈ numbers d)).card := by
    rw [← Set.ncard_coe_finset]
    congr 1
    ext d
    simp only [Finset.coe_filter, Set.mem_setOf_eq, hmemD]
    constructor
    · rintro ⟨h1, l, hl, hm⟩
      refine ⟨h1, ?_⟩
      show (i : Int) ∈ ((sampleUnique 0 (n' + 1 : Nat) count many d).getD []).toFinset
      rw [hl]
      simpa using hm
    · rintro ⟨h1, h2⟩
      obtain ⟨l, hl, hls⟩ := hsample d ((hmemD d).mpr h1)
      refine ⟨h1, l, hl, ?_⟩
      have h3 : (i : Int) ∈ ((sampleUnique 0 (n' + 1 : Nat) count many d).getD []).toFinset := h2
      rw [hl] at h3
      simpa using h3
  unfold chosenShare
  rw [hnum, ← hD, div_eq_div_iff (by positivity) (by positivity)]
  have key : (D.filter (fun d => (i : Int) ∈ numbers d)).card * (n' + 1) * (n' + 1).choose count = count * D.card * (n' + 1).choose count := by
    have h3 : ((R.powersetCard count).filter (fun S => (i : Int) ∈ S)).card * (n' + 1) = (n' + 1).choose count * count := by
      have h4 : ((R.powersetCard count).filter (fun S => (i : Int) ∈ S)).card * (n' + 1) + n'.choose count * (n' + 1) = (n' + 1).choose count * (n' + 1) := by
        rw [← Nat.add_mul, hsplit]
      rw [hid] at h4
      have h5 : (n' + 1).choose count * (n' + 1) = (n' + 1).choose count * count + (n' + 1).choose count * (n' + 1 - count) := by
        rw [← Nat.mul_add]; congr 1; omega
      omega
    calc _ = (D.filter (fun d => (i : Int) ∈ numbers d)).card * (n' + 1).choose count * (n' + 1) := by ring
      _ = ((R.powersetCard count).filter (fun S => (i : Int) ∈ S)).card * (n' + 1) * D.card := by rw [hcount]; ring
      _ = _ := by rw [h3]; ring
  exact_mod_cast Nat.eq_of_mul_eq_mul_right hchoose key

theorem geneRate_eq (n : Nat) (hn : n < 65536) (law : Nat → ℝ) (many : Nat → Bool) (i : Nat) (hi : i < n) :
    geneRate n law many i = (∑ k ∈ Finset.range (n + 1), law k * k) / n := by
  unfold geneRate
  rw [Finset.sum_div]
  apply Finset.sum_congr rfl
  intro k hk
  rw [Finset.mem_range] at hk
  rw [chosenShare_eq n k (by omega) hn (many k) i hi]
  ring

/-! #### Up to five genes -/

instance : IsProbabilityMeasure unitUniform := ⟨by simp [unitUniform]⟩

theorem unitUniform_le (p : ℝ) (h0 : 0 ≤ p) (h1 : p ≤ 1) : (unitUniform {r | r ≤ p}).toReal = p := by
  unfold unitUniform
  rw [Measure.restrict_apply (show MeasurableSet {r : ℝ | r ≤ p} from measurableSet_Iic)]
  rcases eq_or_lt_of_le h1 with rfl | h
  · have : {r : ℝ | r ≤ 1} ∩ Set.Ico 0 1 = Set.Ico 0 1 := by
      ext r
      simp only [Set.mem_inter_iff, Set.mem_setOf_eq, Set.mem_Ico]
      constructor
      · rintro ⟨_, h⟩; exact h
      · rintro ⟨h2, h3⟩; exact ⟨h3.le, h2, h3⟩
    rw [this, Real.volume_Ico]
    simp
  · have : {r : ℝ | r ≤ p} ∩ Set.Ico 0 1 = Set.Icc 0 p := by
      ext r
      simp only [Set.mem_inter_iff, Set.mem_setOf_eq, Set.mem_Ico, Set.mem_Icc]
      constructor
      · rintro ⟨h2, h3, _⟩; exact ⟨h3, h2⟩
      · rintro ⟨h2, h3⟩; exact ⟨h3, h2, lt_of_le_of_lt h3 h⟩
    rw [this, Real.volume_Icc, sub_zero, ENNReal.toReal_ofReal h0]

theorem binomialExact_isSome (p : ℝ) : ∀ (n : Nat) (l : List ℝ), l.length = n → (binomialExact n p l).isSome = true
  | 0, _, _ => rfl
  | n + 1, [], h => by simp at h
  | n + 1, r :: l, h => by
      simp only [binomialExact, Option.isSome_map]
      exact binomialExact_isSome p n l (by simpa using h)

/-- The number of the mutated genes of a chromosome with up to five genes. `ν` is the distribution of `randomReal()`. -/
theorem small_law (ν : Measure ℝ) [IsProbabilityMeasure ν] (n : Nat) (hn : n ≤ 5) (p sd : ℝ) (z : List ℝ) (po : List Nat) (k : Nat) :
    resultProb ν n (fun reals => randomBinomial n p sd z po reals) k = n.choose k * (ν {r | r ≤ p}).toReal ^ k * (1 - (ν {r | r ≤ p}).toReal) ^ (n - k) := by
  have e : ∀ reals, randomBinomial n p sd z po reals = binomialExact n p reals := by
    intro reals
    unfold randomBinomial
    have h1 : ¬ ((n > 50 ∧ p * n < 10) ∨ ((5 < n ∧ n ≤ 50) ∧ p < 1 / 5)) := by omega
    simp only [decide_eq_false h1, Bool.false_eq_true, if_false]
    rw [if_neg (by omega)]
  unfold resultProb
  simp only [e]
  have hs : drawProb ν n (fun l => (binomialExact n p l).isSome = true) = 1 := by
    rw [← drawProb_true ν n]
    apply drawProb_congr_length
    intro l hl
    simp [binomialExact_isSome p n l hl]
  rw [hs, ENNReal.toReal_one, div_one, drawProb_exact ν p n k, ENNReal.toReal_mul, ENNReal.toReal_mul, ENNReal.toReal_natCast, ENNReal.toReal_pow, ENNReal.toReal_pow]
  congr 2
  rw [measure_compl (show MeasurableSet {r : ℝ | r ≤ p} from measurableSet_Iic) (measure_ne_top _ _), measure_univ, ENNReal.toReal_sub_of_le prob_le_one ENNReal.one_ne_top, ENNReal.toReal_one]

/-- **C80 (mutation rates of up to five genes).** In chromosomes of up to five genes every gene is mutated with the probability of `randomReal() <= pm`; if `randomReal()` is uniform on
`[0, 1)`, this is the mutation rate. -/
theorem C80_small_rate (ν : Measure ℝ) [IsProbabilityMeasure ν] (n : Nat) (hn : n ≤ 5) (pm sd : ℝ) (z : List ℝ) (po : List Nat) (many : Nat → Bool) (i : Nat) (hi : i < n) :
    geneRate n (resultProb ν n (fun reals => randomBinomial n pm sd z po reals)) many i = (ν {r | r ≤ pm}).toReal := by
  rw [geneRate_eq n (by omega) _ many i hi]
  simp only [small_law ν n hn]
  generalize (ν {r | r ≤ pm}).toReal = q
  have h1 : 1 ≤ n := by omega
  interval_cases n <;> simp only [Finset.sum_range_succ, Finset.sum_range_zero, Nat.choose] <;> push_cast <;> ring

theorem C80_small_uniform (n : Nat) (hn : n ≤ 5) (pm sd : ℝ) (h0 : 0 ≤ pm) (h1 : pm ≤ 1) (z : List ℝ) (po : List Nat) (many : Nat → Bool) (i : Nat) (hi : i < n) :
    geneRate n (resultProb unitUniform n (fun reals => randomBinomial n pm sd z po reals)) many i = pm := by
  rw [C80_small_rate unitUniform n hn pm sd z po many i hi, unitUniform_le pm h0 h1]

example (i : Nat) (hi : i < 3) : geneRate 3 (resultProb unitUniform 3 (fun reals => randomBinomial 3 (1 / 4) 0 [] [] reals)) (fun _ => false) i = 1 / 4 :=
  C80_small_uniform 3 (by norm_num) (1 / 4) 0 (by norm_num) (by norm_num) [] [] (fun _ => false) i hi

/-- **C80 (independence, up to five genes).** `Flip` changes a chromosome of up to five genes into a given other one, at the distance `d`, with the probability `pm^d (1 - pm)^(n - d)`: every gene
is flipped with the mutation rate, independently of the other ones. -/
theorem C80_small_flip (l : List Nat) (hl : ∀ g ∈ l, g ≤ 1) (hn : l.length ≤ 5) (pm sd : ℝ) (h0 : 0 ≤ pm) (h1 : pm ≤ 1) (z : List ℝ) (po : List Nat) (many : Bool)
    (c : List Nat) (hcl : c.length = l.length) (hcb : ∀ g ∈ c, g ≤ 1) :
    resultProb unitUniform l.length (fun reals => randomBinomial l.length pm sd z po reals) (hammingDist l c) *
      ((Set.ncard {draws ∈ SampleInputs 0 l.length (hammingDist l c) many | Model.flip (hammingDist l c) many draws l = some c} : ℝ) /
        (Set.ncard (SampleInputs 0 l.length (hammingDist l c) many) : ℝ)) = pm ^ hammingDist l c * (1 - pm) ^ (l.length - hammingDist l c) := by
  obtain ⟨h2, h3⟩ := C76_flip_partial l hl (by omega) many c hcl hcb
  rw [small_law unitUniform l.length hn, unitUniform_le pm h0 h1]
  have h4 : (Set.ncard {draws ∈ SampleInputs 0 l.length (hammingDist l c) many | Model.flip (hammingDist l c) many draws l = some c} : ℝ) * (l.length.choose (hammingDist l c) : ℝ) =
      (Set.ncard (SampleInputs 0 l.length (hammingDist l c) many) : ℝ) := by exact_mod_cast h2
  have h5 : (0 : ℝ) < (Set.ncard (SampleInputs 0 l.length (hammingDist l c) many) : ℝ) := by exact_mod_cast h3
  rw [← h4] at h5 ⊢
  generalize (Set.ncard {draws ∈ SampleInputs 0 l.length (hammingDist l c) many | Model.flip (hammingDist l c) many draws l = some c} : ℝ) = a at *
  generalize (l.length.choose (hammingDist l c) : ℝ) = b at *
  have ha : a ≠ 0 := by rintro rfl; simp at h5
  have hb : b ≠ 0 := by rintro rfl; simp at h5
  field_simp

/-! #### The Poisson approximation -/

/-- The numbers of genes and the mutation rates for which the number of the mutated genes is drawn from a Poisson distribution. -/
def UsesPoisson (n : Nat) (p : ℝ) : Prop := 0 < p ∧ ((n > 50 ∧ p * n < 10) ∨ ((5 < n ∧ n ≤ 50) ∧ p < 1 / 5))

theorem poisson_law (n : Nat) (p sd : ℝ) (hp : UsesPoisson n p) (hp1 : p < 1) (z reals : List ℝ) (N : Nat) (hN : 0 < N) (k : Nat) (hk : k ≤ n) :
    resultProb (ProbabilityTheory.poissonMeasure (Real.toNNReal (n * p))) N (fun po => randomBinomial n p sd z po reals) k =
      ((n * p) ^ k / (k.factorial : ℝ)) / ∑ j ∈ Finset.range (n + 1), (n * p) ^ j / (j.factorial : ℝ) := by
  obtain ⟨h0, hc⟩ := hp
  have e : ∀ po, randomBinomial n p sd z po reals = (po.find? (fun x => decide (¬ x > n))).map Int.ofNat := by
    intro po
    unfold randomBinomial binomialApproxPoisson
    simp only [decide_eq_true hc, if_true]
    rw [if_neg (ne_of_gt h0), if_neg (ne_of_lt hp1)]
  set μ := ProbabilityTheory.poissonMeasure (Real.toNNReal (n * p)) with hμ
  have hnp : (0 : ℝ) < n * p := by
    have : 0 < n := by omega
    positivity
  have hreal : ∀ j : Nat, (μ {j}).toReal = Real.exp (-(n * p)) * ((n * p) ^ j / (j.factorial : ℝ)) := by
    intro j
    have := ProbabilityTheory.poissonMeasure_real_singleton (Real.toNNReal (n * p)) j
    rw [Measure.real, ← hμ, Real.coe_toNNReal _ hnp.le] at this
    rw [this, mul_div_assoc]
  unfold resultProb
  simp only [e]
  have e1 : drawProb μ N (fun po => (po.find? (fun x => decide (¬ x > n))).map Int.ofNat = some (k : Int)) =
      drawProb μ N (fun po => ∃ x, po.find? (fun x => decide (¬ x > n)) = some x ∧ x = k) := by
    apply drawProb_congr
    intro l
    simp only [Option.map_eq_some_iff, Int.ofNat_eq_natCast, Int.natCast_inj]
  have e2 : drawProb μ N (fun po => ((po.find? (fun x => decide (¬ x > n))).map Int.ofNat).isSome = true) =
      drawProb μ N (fun po => ∃ x, po.find? (fun x => decide (¬ x > n)) = some x ∧ True) := by
    apply drawProb_congr
    intro l
    simp only [Option.isSome_map, Option.isSome_iff_exists, and_true]
  rw [e1, e2, drawProb_find μ _ _ (MeasurableSet.of_discrete) (MeasurableSet.of_discrete), drawProb_find μ _ _ (MeasurableSet.of_discrete) (MeasurableSet.of_discrete)]
  obtain ⟨hne0, hnet⟩ := sum_pow_ne (μ {x : Nat | decide (¬ x > n) = true}ᶜ) prob_le_one N hN
  generalize (∑ i ∈ Finset.range N, μ {x : Nat | decide (¬ x > n) = true}ᶜ ^ i) = S at *
  rw [ENNReal.toReal_mul, ENNReal.toReal_mul, mul_div_mul_right _ _ (ENNReal.toReal_ne_zero.mpr ⟨hne0, hnet⟩)]
  have s1 : {x : Nat | decide (¬ x > n) = true ∧ x = k} = {k} := by
    ext x
    simp only [decide_eq_true_eq, Set.mem_setOf_eq, Set.mem_singleton_iff]
    constructor
    · exact fun h => h.2
    · rintro rfl; exact ⟨by omega, rfl⟩
  have s2 : {x : Nat | decide (¬ x > n) = true ∧ True} = (Finset.range (n + 1) : Set Nat) := by
    ext x
    simp only [decide_eq_true_eq, Set.mem_setOf_eq, and_true, Finset.coe_range, Set.mem_Iio]
    omega
  rw [s1, s2, ← sum_measure_singleton (μ := μ) (s := Finset.range (n + 1)), ENNReal.toReal_sum (fun a _ => measure_ne_top _ _), hreal]
  simp only [hreal]
  rw [← Finset.mul_sum, mul_div_mul_left _ _ (ne_of_gt (Real.exp_pos _))]

theorem poisson_mean (x : ℝ) : ∀ n : Nat, ∑ k ∈ Finset.range (n + 1), x ^ k / (k.factorial : ℝ) * k = x * ∑ k ∈ Finset.range n, x ^ k / (k.factorial : ℝ)
  | 0 => by simp
  | n + 1 => by
      rw [Finset.sum_range_succ, poisson_mean x n, Finset.sum_range_succ (n := n), mul_add]
      congr 1
      rw [Nat.factorial_succ]
      push_cast
      have : (n.factorial : ℝ) ≠ 0 := by exact_mod_cast Nat.factorial_ne_zero n
      field_simp
      rw [pow_succ, mul_comm]

/-- **C80 (mutation rates, Poisson approximation).** When the number of the mutated genes is drawn from a Poisson distribution, the probability that a gene is mutated is less than the mutation rate,
by less than 0.2 percent of it. -/
theorem C80_poisson_rate_partial (n : Nat) (hn : n < 65536) (pm sd : ℝ) (hp : UsesPoisson n pm) (z reals : List ℝ) (N : Nat) (hN : 0 < N) (many : Nat → Bool) (i : Nat) (hi : i < n) :
    geneRate n (resultProb (ProbabilityTheory.poissonMeasure (Real.toNNReal (poissonMean n pm))) N (fun po => randomBinomial n pm sd z po reals)) many i < pm ∧
    499 / 500 * pm < geneRate n (resultProb (ProbabilityTheory.poissonMeasure (Real.toNNReal (poissonMean n pm))) N (fun po => randomBinomial n pm sd z po reals)) many i := by
  unfold poissonMean
  have h5 : 5 < n := by
    have := hp.2
    omega
  have hn0 : (6 : ℝ) ≤ n := by exact_mod_cast h5
  have hp5 : pm < 1 / 5 := by
    rcases hp.2 with ⟨h1, h2⟩ | ⟨h1, h2⟩
    · have : (51 : ℝ) ≤ n := by exact_mod_cast h1
      by_contra hcon
      have : 1 / 5 * 51 ≤ pm * n := mul_le_mul (not_lt.mp hcon) this (by norm_num) (by linarith [hp.1])
      linarith
    · exact h2
  have h0 := hp.1
  rw [geneRate_eq n hn _ many i hi]
  have e : ∑ k ∈ Finset.range (n + 1), resultProb (ProbabilityTheory.poissonMeasure (Real.toNNReal (n * pm))) N (fun po => randomBinomial n pm sd z po reals) k * k =
      (n * pm) * (∑ k ∈ Finset.range n, (n * pm) ^ k / (k.factorial : ℝ)) / ∑ k ∈ Finset.range (n + 1), (n * pm) ^ k / (k.factorial : ℝ) := by
    rw [← poisson_mean, Finset.sum_div]
    apply Finset.sum_congr rfl
    intro k hk
    rw [Finset.mem_range] at hk
    rw [poisson_law n pm sd hp (by linarith) z reals N hN k (by omega)]
    ring
  rw [e]
  set x : ℝ := n * pm with hx
  have hxpos : 0 < x := by positivity
  have hxn : x < n / 5 := by rw [hx]; nlinarith
  have htpos : ∀ k : Nat, 0 < x ^ k / (k.factorial : ℝ) := fun k => by positivity
  rw [Finset.sum_range_succ]
  set S := ∑ k ∈ Finset.range n, x ^ k / (k.factorial : ℝ) with hS
  set t := x ^ n / (n.factorial : ℝ) with ht
  have htp : 0 < t := htpos n
  -- the last terms
  have hstep : ∀ k : Nat, 5 * ((k : ℝ) + 1) / n * (x ^ (k + 1) / ((k + 1).factorial : ℝ)) ≤ x ^ k / (k.factorial : ℝ) := by
    intro k
    have h1 : x ^ (k + 1) / ((k + 1).factorial : ℝ) = x / (k + 1) * (x ^ k / (k.factorial : ℝ)) := by
      rw [Nat.factorial_succ, pow_succ]
      push_cast
      have : (k.factorial : ℝ) ≠ 0 := by exact_mod_cast Nat.factorial_ne_zero k
      field_simp
    rw [h1, ← mul_assoc]
    have h2 : 5 * ((k : ℝ) + 1) / n * (x / (k + 1)) ≤ 1 := by
      have h3 : 5 * ((k : ℝ) + 1) / n * (x / (k + 1)) = 5 * x / n := by field_simp
      rw [h3, div_le_one (by linarith)]
      linarith
    have := mul_le_mul_of_nonneg_right h2 (htpos k).le
    linarith
  obtain ⟨n', hn'⟩ : ∃ n', n = n' + 5 := ⟨n - 5, by omega⟩
  have hn1 : (1 : ℝ) ≤ n' := by exact_mod_cast (by omega : 1 ≤ n')
  have hnr : (n : ℝ) = n' + 5 := by rw [hn']; push_cast; ring
  have hfrac : ∀ c : ℝ, 0 ≤ c → c ≤ 4 → (1 + c) / 6 ≤ (n' + c) / (n' + 5) := by
    intro c hc hc2
    rw [div_le_div_iff₀ (by norm_num) (by linarith)]
    nlinarith
  have hS500 : 500 * t < S := by
    have g1 := hstep (n' + 4)
    have g2 := hstep (n' + 3)
    have g3 := hstep (n' + 2)
    have g4 := hstep (n' + 1)
    have g5 := hstep n'
    have hsum : S = (∑ k ∈ Finset.range n', x ^ k / (k.factorial : ℝ)) + x ^ n' / (n'.factorial : ℝ) + x ^ (n' + 1) / ((n' + 1).factorial : ℝ) + x ^ (n' + 2) / ((n' + 2).factorial : ℝ) +
        x ^ (n' + 3) / ((n' + 3).factorial : ℝ) + x ^ (n' + 4) / ((n' + 4).factorial : ℝ) := by
      rw [hS, hn']
      simp only [Finset.sum_range_succ]
    have hrest : 0 ≤ ∑ k ∈ Finset.range n', x ^ k / (k.factorial : ℝ) := Finset.sum_nonneg (fun k _ => (htpos k).le)
    have et : t = x ^ (n' + 4 + 1) / ((n' + 4 + 1).factorial : ℝ) := by rw [ht, hn']
    have p1 := htpos (n' + 4)
    have p2 := htpos (n' + 3)
    have p3 := htpos (n' + 2)
    have p4 := htpos (n' + 1)
    have p5 := htpos n'
    rw [← et, hnr] at g1
    rw [hnr] at g2 g3 g4 g5
    simp only [Nat.add_assoc, Nat.reduceAdd] at g1 g2 g3 g4 g5
    push_cast at g1 g2 g3 g4 g5
    rw [hsum]
    generalize x ^ (n' + 4) / ((n' + 4).factorial : ℝ) = a1 at *
    generalize x ^ (n' + 3) / ((n' + 3).factorial : ℝ) = a2 at *
    generalize x ^ (n' + 2) / ((n' + 2).factorial : ℝ) = a3 at *
    generalize x ^ (n' + 1) / ((n' + 1).factorial : ℝ) = a4 at *
    generalize x ^ n' / (n'.factorial : ℝ) = a5 at *
    have q : ∀ (c a b : ℝ), 0 ≤ c → c ≤ 4 → 0 < a → 5 * (n' + c + 1) / (n' + 5) * a ≤ b → 5 * ((2 + c) / 6) * a ≤ b := by
      intro c a b hc hc2 ha hb
      have h1 : (1 + (c + 1)) / 6 ≤ (n' + (c + 1)) / (n' + 5) ∨ c + 1 > 4 := by
        rcases le_or_gt (c + 1) 4 with h | h
        · left; exact hfrac (c + 1) (by linarith) h
        · right; exact h
      have h2 : (2 + c) / 6 ≤ (n' + c + 1) / (n' + 5) := by
        rw [div_le_div_iff₀ (by norm_num) (by linarith)]
        nlinarith
      have h3 := mul_le_mul_of_nonneg_right h2 ha.le
      have h4 : 5 * (n' + c + 1) / (n' + 5) * a = 5 * ((n' + c + 1) / (n' + 5) * a) := by ring
      rw [h4] at hb
      linarith
    have k1 := q 4 t a1 (by norm_num) (by norm_num) htp g1
    have k2 := q 3 a1 a2 (by norm_num) (by norm_num) p1 g2
    have k3 := q 2 a2 a3 (by norm_num) (by norm_num) p2 g3
    have k4 := q 1 a3 a4 (by norm_num) (by norm_num) p3 g4
    have k5 := q 0 a4 a5 (by norm_num) (by norm_num) p4 (by simpa using g5)
    linarith
  have hnpos : (0 : ℝ) < n := by linarith
  have hSp : 0 < S := by linarith
  have hval : x * S / (S + t) / n = pm * (S / (S + t)) := by
    rw [hx]
    field_simp
  rw [hval]
  have hr1 : S / (S + t) < 1 := by rw [div_lt_one (by linarith)]; linarith
  have hr2 : 499 / 500 < S / (S + t) := by rw [lt_div_iff₀ (by linarith)]; linarith
  constructor
  · nlinarith
  · nlinarith

example : UsesPoisson 100 (1 / 100) ∧ UsesPoisson 6 (1 / 10) := by
  constructor
  · exact ⟨by norm_num, Or.inl ⟨by norm_num, by norm_num⟩⟩
  · exact ⟨by norm_num, Or.inr ⟨⟨by norm_num, by norm_num⟩, by norm_num⟩⟩

example (i : Nat) (hi : i < 100) (po : Nat → Bool) :
    geneRate 100 (resultProb (ProbabilityTheory.poissonMeasure (Real.toNNReal (poissonMean 100 (1 / 100)))) 7 (fun draws => randomBinomial 100 (1 / 100 : ℝ) 1 [] draws [])) po i < 1 / 100 :=
  (C80_poisson_rate_partial 100 (by norm_num) (1 / 100) 1 ⟨by norm_num, Or.inl ⟨by norm_num, by norm_num⟩⟩ [] [] 7 (by norm_num) po i hi).1

end Gapp.Props
