import Mathlib.Analysis.SpecialFunctions.Exp
import Mathlib.Analysis.Complex.ExponentialBounds
import Mathlib.Tactic.FieldSimp
import Verif.Model.SelectionParams
import Verif.Spec.SelectionPressure
import Verif.Props.SelectionChance

/-!
# C79: what the parameters of the selection methods do
-/

namespace Gapp.Props

open Gapp.Model Gapp.Spec Gapp.Proofs.SelectionCount

theorem chance_of_weights {w : List ℝ} {select : ℝ → Option Nat} (h : SelectsByWeight w select) (hw : ∀ x ∈ w, 0 ≤ x) (hs : 0 < w.sum) (i : Nat) (hi : i < w.length) :
    chance select i = shareOf w i := by
  have ew : w[i]? = some (w[i]) := List.getElem?_eq_getElem hi
  unfold chance shareOf
  rw [C77_share w select h hw i _ ew, if_neg (ne_of_gt hs), ENNReal.toReal_ofReal (div_nonneg (hw _ (List.getElem_mem hi)) hs.le)]
  rw [List.getD_eq_getElem?_getD, ew, Option.getD_some]

theorem shareOf_map_mul (c : ℝ) (hc : c ≠ 0) (w : List ℝ) (i : Nat) : shareOf (w.map (fun x => c * x)) i = shareOf w i := by
  unfold shareOf
  rw [List.sum_map_mul_left]
  have : (w.map (fun x => c * x)).getD i 0 = c * w.getD i 0 := by
    rw [List.getD_eq_getElem?_getD, List.getD_eq_getElem?_getD, List.getElem?_map]
    cases w[i]? <;> simp
  rw [this]
  simp only [List.map_id']
  rw [mul_div_mul_left _ _ hc]

/-! ### Roulette -/

/-- **C79 (roulette selection with negative values).** If the least fitness value `m` is negative, the probability of a candidate is proportional to its fitness minus `2 m`: the worst
candidate still has the weight `-m`. -/
theorem C79_roulette_negative (f : List ℝ) (small large : ℝ) (hs : 0 < small) (hf : ∀ x ∈ f, -large ≤ x ∧ x ≤ large) (m : ℝ) (hm : m ∈ f) (hmin : ∀ x ∈ f, m ≤ x) (hneg : m < 0)
    (i : Nat) (hi : i < f.length) : chance (rouletteSelect small large f) i = shareOf (f.map (fun x => x - 2 * m)) i := by
  have hne : f ≠ [] := List.ne_nil_of_mem hm
  obtain ⟨m', hm', hmem', hmin'⟩ := minElement_get f hne
  have : m' = m := le_antisymm (hmin' m hm) (hmin m' hmem')
  subst this
  have hw : rouletteWeights f = some (f.map (fun x => 1 / 3 * x + -(2 / 3) * m')) := by
    simp [rouletteWeights, hm', hneg, not_le.mpr hneg]
  have hpos : ∀ x ∈ f, 0 < 1 / 3 * x + -(2 / 3) * m' := by
    intro x hx; have := hmin x hx; linarith
  have hsel : SelectsByWeight (f.map (fun x => 1 / 3 * x + -(2 / 3) * m')) (rouletteSelect small large f) := by
    have heq : rouletteSelect small large f = fun r => (weightsToCdf small large (f.map (fun x => 1 / 3 * x + -(2 / 3) * m'))).bind (fun cdf => sampleCdf cdf r) := by
      funext r; simp only [rouletteSelect, hw, Option.bind_eq_bind, Option.bind_some]
    rw [heq]
    refine selects_of_weights small large hs _ (by simpa using hne) ?_
    intro y hy
    obtain ⟨x, hx, rfl⟩ := List.mem_map.mp hy
    refine ⟨(hpos x hx).le, ?_⟩
    have := hf x hx; have := hf m' hm; linarith
  have hposw : ∀ x ∈ f.map (fun x => 1 / 3 * x + -(2 / 3) * m'), 0 < x := by
    intro y hy
    obtain ⟨x, hx, rfl⟩ := List.mem_map.mp hy
    exact hpos x hx
  rw [chance_of_weights hsel (fun x hx => (hposw x hx).le) (List.sum_pos _ hposw (by simpa using hne)) i (by simpa using hi)]
  rw [← shareOf_map_mul (1 / 3) (by norm_num) (f.map (fun x => x - 2 * m')) i, List.map_map]
  congr 1
  apply List.map_congr_left
  intro x _
  simp only [Function.comp_apply]
  ring

/-- The values -1, 2, 3: the worst candidate is selected with the probability 1/10. -/
example : chance (rouletteSelect (1 / 1000 : ℝ) 1000 [2, -1, 3]) 1 = 1 / 10 := by
  rw [C79_roulette_negative [2, -1, 3] (1 / 1000) 1000 (by norm_num) (by
    intro x hx
    simp only [List.mem_cons, List.not_mem_nil, or_false] at hx
    rcases hx with rfl | rfl | rfl <;> norm_num) (-1) (by simp) (by
    intro x hx
    simp only [List.mem_cons, List.not_mem_nil, or_false] at hx
    rcases hx with rfl | rfl | rfl <;> norm_num) (by norm_num) 1 (by simp)]
  norm_num [shareOf]

/-! ### Rank -/

/-- **C79 (rank selection).** The probability of the candidate on the place `k` of a population of `n` candidates, counted from the worst, is
`(a + k / (n - 1) (b - a)) / (n (a + b) / 2)`, where `a` and `b` are the weights of the worst and the best candidate. It does not depend on the fitness values in any other way. -/
theorem C79_rank (small large minW maxW : ℝ) (hs : 0 < small) (h0 : 0 ≤ minW) (h1 : minW ≤ maxW) (hpos : 0 < maxW) (h2 : maxW ≤ large) (f : List ℝ) (hn : 2 ≤ f.length) (indices : List Nat)
    (hsort : IsArgsortOf false (fun a b => decide (a < b)) f indices) (k i : Nat) (hk : indices[k]? = some i) :
    chance (rankSelect small large minW maxW indices) i = (minW + (k : ℝ) / ((f.length : ℝ) - 1) * (maxW - minW)) / (f.length * (minW + maxW) / 2) := by
  obtain ⟨w, hsel, hfol, hw⟩ := C29_rank_partial small large minW maxW hs h0 h1 h2 f hn indices hsort
  obtain ⟨hperm, -⟩ := C48_argsort false _ f indices hsort
  have hil : indices.length = f.length := by simpa using hperm.length_eq
  obtain ⟨hwl, hnn, _⟩ := hfol
  have hwi := hw k i hk
  have hsum : w.sum = f.length * (minW + maxW) / 2 := by
    have e1 : w = (List.range f.length).map (fun i => w.getD i 0) := by
      apply List.ext_getElem (by simp [hwl])
      intro n h3 h4
      simp [List.getD_eq_getElem?_getD, h3]
    have e2 : w.sum = (indices.map (fun i => w.getD i 0)).sum := by
      conv_lhs => rw [e1]
      have : indices.Perm (List.range f.length) := by simpa using hperm
      exact (this.map _).sum_eq.symm
    have e3 : indices.map (fun i => w.getD i 0) = (List.range f.length).map (fun k : Nat => minW + (k : ℝ) / ((f.length : ℝ) - 1) * (maxW - minW)) := by
      apply List.ext_getElem (by simp [hil])
      intro n h3 h4
      have h5 : n < indices.length := by simpa using h3
      have := hw n _ (List.getElem?_eq_getElem h5)
      simp [List.getD_eq_getElem?_getD, this]
    rw [e2, e3]
    have gauss : ∀ (m : Nat) (c : ℝ), ((List.range m).map (fun k : Nat => minW + (k : ℝ) / c * (maxW - minW))).sum = m * minW + (m * (m - 1) / 2 / c) * (maxW - minW) := by
      intro m c
      induction m with
      | zero => simp
      | succ m ih =>
        rw [List.range_succ, List.map_append, List.sum_append, ih]
        simp only [List.map_cons, List.map_nil, List.sum_cons, List.sum_nil]
        push_cast
        ring
    rw [gauss]
    have h3 : (2 : ℝ) ≤ f.length := by exact_mod_cast hn
    have h4 : (f.length : ℝ) - 1 ≠ 0 := by linarith
    field_simp
    ring
  have hsp : 0 < w.sum := by
    rw [hsum]
    have h3 : (2 : ℝ) ≤ f.length := by exact_mod_cast hn
    have : 0 < minW + maxW := by linarith
    positivity
  have hi := (List.getElem?_eq_some_iff.mp hwi).1
  rw [chance_of_weights hsel hnn hsp i hi]
  unfold shareOf
  rw [List.getD_eq_getElem?_getD, hwi, hsum, Option.getD_some]

/-- The default weights 0.1 and 1.1 with five candidates: the best one is selected with the probability 11/30, the worst one with 1/30. -/
example : chance (rankSelect (1 / 1000 : ℝ) 1000 (1 / 10) (11 / 10) [1, 3, 4, 2, 0]) 0 = 11 / 30 ∧ chance (rankSelect (1 / 1000 : ℝ) 1000 (1 / 10) (11 / 10) [1, 3, 4, 2, 0]) 1 = 1 / 30 := by
  have h : IsArgsortOf false (fun a b : ℝ => decide (a < b)) [5, 1, 4, 2, 3] [1, 3, 4, 2, 0] := by
    refine ⟨by decide, ?_⟩
    norm_num [compareAt]
  rw [C79_rank (1 / 1000) 1000 (1 / 10) (11 / 10) (by norm_num) (by norm_num) (by norm_num) (by norm_num) (by norm_num) [5, 1, 4, 2, 3] (by simp) [1, 3, 4, 2, 0] h 4 0 rfl,
    C79_rank (1 / 1000) 1000 (1 / 10) (11 / 10) (by norm_num) (by norm_num) (by norm_num) (by norm_num) (by norm_num) [5, 1, 4, 2, 3] (by simp) [1, 3, 4, 2, 0] h 0 1 rfl]
  norm_num

/-! ### Tournaments -/

section
variable {K : Type} [Field K] [LinearOrder K] [IsStrictOrderedRing K]

/-- The sequences of draws for which the selected candidate has the fitness `x` or a greater one. -/
def WonByAtLeast (size : Nat) (f : List K) (x : K) : Set (List Nat) :=
  {draws ∈ TourneyDraws f.length size | ∃ i fi, tournamentSelect size f draws = some i ∧ f[i]? = some fi ∧ x ≤ fi}

/-- **C79 (tournament size).** The probability that the selected candidate has the fitness `x` or a greater one is `1 - (the share of the candidates below x) ^ size`. -/
theorem C79_tournament_size (size : Nat) (hs : 0 < size) (f : List K) (hf : size ≤ f.length) (x : K) :
    ((WonByAtLeast size f x).ncard : ℚ) / ((TourneyDraws f.length size).ncard : ℚ) = 1 - ((f.countP (fun y => decide (y < x)) : ℚ) / f.length) ^ size := by
  have hT : (TourneyDraws f.length size).ncard = f.length ^ size := by
    rw [tourneyDraws_eq, Set.ncard_coe_finset, card_listsOf, Finset.card_range]
  have hfin : (TourneyDraws f.length size).Finite := by rw [tourneyDraws_eq]; exact Finset.finite_toSet _
  have hcompl : TourneyDraws f.length size \ WonByAtLeast size f x = (listsOf (positions f (fun y => decide (y < x))) size : Set (List Nat)) := by
    ext d
    simp only [Set.mem_sdiff, Finset.mem_coe, mem_listsOf, mem_positions, decide_eq_true_eq]
    constructor
    · rintro ⟨hd, hnot⟩
      obtain ⟨k, fk, h1, h2, h3, h4⟩ := C29_tournament size hs f hf d hd.1 hd.2
      refine ⟨hd.1, fun e he => ?_⟩
      have he' := List.getElem?_eq_getElem (hd.2 e he)
      refine ⟨_, he', ?_⟩
      have h5 : fk < x := by
        by_contra h
        exact hnot ⟨hd, k, fk, h1, h3, not_lt.mp h⟩
      exact lt_of_le_of_lt (h4 e he _ he') h5
    · rintro ⟨h1, h2⟩
      have hr : ∀ e ∈ d, e < f.length := by
        intro e he
        obtain ⟨y, hy, _⟩ := h2 e he
        exact (List.getElem?_eq_some_iff.mp hy).1
      refine ⟨⟨h1, hr⟩, ?_⟩
      rintro ⟨-, i, fi, h3, h4, h5⟩
      obtain ⟨k, fk, h6, h7, h8, h9⟩ := C29_tournament size hs f hf d h1 hr
      rw [h3] at h6
      cases h6
      obtain ⟨y, hy, hlt⟩ := h2 i h7
      rw [h4] at hy
      cases hy
      exact absurd hlt (not_lt.mpr h5)
  have hsub : WonByAtLeast size f x ⊆ TourneyDraws f.length size := fun d hd => hd.1
  have hadd := Set.ncard_sdiff_add_ncard_of_subset hsub hfin
  rw [hcompl, Set.ncard_coe_finset, card_listsOf, card_positions, hT] at hadd
  have hn : (0 : ℚ) < f.length := by exact_mod_cast (by omega : 0 < f.length)
  have hq : ((f.countP (fun y => decide (y < x)) : ℚ)) ^ size + ((WonByAtLeast size f x).ncard : ℚ) = (f.length : ℚ) ^ size := by exact_mod_cast hadd
  rw [hT, div_pow]
  push_cast
  field_simp
  linarith

/-- **C79 (larger tournaments).** In a larger tournament the selected candidate is more likely to reach any fitness that some, but not all candidates have. A tournament of one candidate selects
every candidate with the same probability. -/
theorem C79_tournament_larger (f : List K) (x : K) (hlow : ∃ y ∈ f, y < x) (hhigh : ∃ y ∈ f, x ≤ y) (size size' : Nat) (hs : 0 < size) (hlt : size < size') (hf : size' ≤ f.length) :
    ((WonByAtLeast size f x).ncard : ℚ) / ((TourneyDraws f.length size).ncard : ℚ) < ((WonByAtLeast size' f x).ncard : ℚ) / ((TourneyDraws f.length size').ncard : ℚ) := by
  rw [C79_tournament_size size hs f (by omega) x, C79_tournament_size size' (by omega) f hf x]
  have hn : (0 : ℚ) < f.length := by exact_mod_cast (by omega : 0 < f.length)
  have h1 : 0 < f.countP (fun y => decide (y < x)) := by
    rw [List.countP_pos_iff]
    obtain ⟨y, hy, h⟩ := hlow
    exact ⟨y, hy, by simpa using h⟩
  have h2 : f.countP (fun y => decide (y < x)) < f.length := by
    rcases Nat.lt_or_ge (f.countP (fun y => decide (y < x))) f.length with h | h
    · exact h
    · exfalso
      have he : f.countP (fun y => decide (y < x)) = f.length := le_antisymm List.countP_le_length h
      obtain ⟨y, hy, hxy⟩ := hhigh
      have := List.countP_eq_length.mp he y hy
      simp only [decide_eq_true_eq] at this
      exact absurd this (not_lt.mpr hxy)
  have h3 : (0 : ℚ) < (f.countP (fun y => decide (y < x)) : ℚ) / f.length := div_pos (by exact_mod_cast h1) hn
  have h4 : (f.countP (fun y => decide (y < x)) : ℚ) / f.length < 1 := by
    rw [div_lt_one hn]; exact_mod_cast h2
  have := pow_lt_pow_right_of_lt_one₀ h3 h4 hlt
  linarith

theorem C79_tournament_one (f : List K) (i : Nat) (hi : i < f.length) : (WonBy 1 f i).ncard = 1 ∧ (TourneyDraws f.length 1).ncard = f.length := by
  constructor
  · rw [Set.ncard_eq_one]
    refine ⟨[i], ?_⟩
    ext d
    simp only [WonBy, Set.mem_setOf_eq, Set.mem_singleton_iff]
    constructor
    · rintro ⟨⟨h1, h2⟩, h3⟩
      obtain ⟨k, fk, h4, h5, h6, h7⟩ := C29_tournament 1 (by decide) f (by omega) d h1 h2
      rw [h3] at h4
      cases h4
      obtain ⟨a, rfl⟩ := List.length_eq_one_iff.mp h1
      rw [List.mem_singleton] at h5
      rw [h5]
    · rintro rfl
      have hT : [i] ∈ TourneyDraws f.length 1 := ⟨rfl, by simpa using hi⟩
      refine ⟨hT, ?_⟩
      obtain ⟨k, fk, h4, h5, h6, h7⟩ := C29_tournament 1 (by decide) f (by omega) [i] hT.1 hT.2
      rw [List.mem_singleton] at h5
      rw [h4, h5]
  · rw [tourneyDraws_eq, Set.ncard_coe_finset, card_listsOf, Finset.card_range, pow_one]
end

/-- Ten candidates, one of which is the best: it is selected with the probability 19/100 in a tournament of two. -/
example : ((WonByAtLeast 2 [(1 : ℚ), 4, 2, 4, 9, 0, 1, 1, 1, 1] 9).ncard : ℚ) / ((TourneyDraws 10 2).ncard : ℚ) = 19 / 100 := by
  have h := C79_tournament_size 2 (by decide) [(1 : ℚ), 4, 2, 4, 9, 0, 1, 1, 1, 1] (by decide) 9
  have e : [(1 : ℚ), 4, 2, 4, 9, 0, 1, 1, 1, 1].countP (fun y => decide (y < 9)) = 9 := by decide +kernel
  rw [e] at h
  simp only [List.length_cons, List.length_nil, Nat.reduceAdd] at h
  rw [h]
  norm_num

/-! ### Sigma scaling -/

theorem mathMean_eq (f : List ℝ) : mathMean f = f.sum / f.length := by
  unfold mathMean
  simp only [div_eq_mul_inv]
  rw [List.sum_map_mul_right]
  simp

theorem mathStdDev_eq (f : List ℝ) (hne : f ≠ []) : mathStdDev Real.sqrt f (mathMean f) = popDeviation f := by
  unfold mathStdDev popDeviation
  rw [mathMean_eq]
  split
  · rename_i h
    obtain ⟨a, rfl⟩ := List.length_eq_one_iff.mp h
    simp
  · congr 1
    simp only [div_eq_mul_inv]
    rw [List.sum_map_mul_right]

/-- **C79 (sigma scaling, the formula).** Whatever the scaling parameter is, the probability of a candidate is proportional to `1 + (f - mean) / deviation`, or 0 if this is negative:
a candidate whose fitness is the deviation below the mean, or lower, is never selected. -/
theorem C79_sigma_formula_partial (op : SigmaOperator ℝ) (small large : ℝ) (hs : 0 < small) (f : List ℝ) (hdev : small ≤ popDeviation f ∧ popDeviation f ≤ large)
    (hb : ∀ x ∈ f, 1 + (x - f.sum / f.length) / popDeviation f ≤ large) (i : Nat) (hi : i < f.length) :
    chance (op.select Real.sqrt small large f) i = shareOf (f.map (fun x => max 0 (1 + (x - f.sum / f.length) / popDeviation f))) i := by
  have hne : f ≠ [] := by rintro rfl; simp at hi
  have hl : 0 ≤ large := by linarith [hdev.1, hdev.2]
  have hw := C29_sigma_weights Real.sqrt small large f (popDeviation f) (mathStdDev_eq f hne) hdev.1 hdev.2 (by rw [mathMean_eq]; exact hb) hl
  rw [mathMean_eq] at hw
  have hsel : SelectsByWeight (sigmaWeights Real.sqrt small large f) (op.select Real.sqrt small large f) := by
    refine selects_of_weights small large hs _ (by simpa [sigmaWeights] using hne) ?_
    intro y hy
    simp only [sigmaWeights] at hy
    obtain ⟨x, _, rfl⟩ := List.mem_map.mp hy
    exact clampTo_nonneg _ _ hl
  rw [hw] at hsel
  have hn : (0 : ℝ) < f.length := by exact_mod_cast (by omega : 0 < f.length)
  refine chance_of_weights hsel ?_ ?_ i (by simpa using hi)
  · intro y hy
    obtain ⟨x, _, rfl⟩ := List.mem_map.mp hy
    exact le_max_left _ _
  · have h1 : (f.map (fun x => 1 + (x - f.sum / f.length) / popDeviation f)).sum = f.length := by
      have h2 : ∀ (l : List ℝ) (c d : ℝ), (l.map (fun x => 1 + (x - c) / d)).sum = l.length + (l.sum - l.length * c) / d := by
        intro l c d
        induction l with
        | nil => simp
        | cons a l ih =>
          rw [List.map_cons, List.sum_cons, ih, List.length_cons, List.sum_cons]
          push_cast
          ring
      rw [h2, mul_div_cancel₀ _ (ne_of_gt hn)]
      simp
    have h3 : (f.map (fun x => 1 + (x - f.sum / f.length) / popDeviation f)).sum ≤ (f.map (fun x => max 0 (1 + (x - f.sum / f.length) / popDeviation f))).sum :=
      List.sum_le_sum (fun x _ => le_max_right _ _)
    linarith

theorem dev_two : popDeviation [0, 4] = 2 := by
  unfold popDeviation
  norm_num
  rw [show (4 : ℝ) = 2 ^ 2 by norm_num, Real.sqrt_sq (by norm_num)]

theorem sigma_two (op : SigmaOperator ℝ) (small large : ℝ) (hs : 0 < small) (hs2 : small ≤ 2) (hl : 2 ≤ large) :
    chance (op.select Real.sqrt small large [0, 4]) 0 = 0 ∧ chance (op.select Real.sqrt small large [0, 4]) 1 = 1 := by
  have hb : ∀ x ∈ ([0, 4] : List ℝ), 1 + (x - ([0, 4] : List ℝ).sum / ([0, 4] : List ℝ).length) / popDeviation [0, 4] ≤ large := by
    intro x hx
    rw [dev_two]
    simp only [List.mem_cons, List.not_mem_nil, or_false] at hx
    rcases hx with rfl | rfl <;> norm_num <;> linarith
  have hd : small ≤ popDeviation [0, 4] ∧ popDeviation [0, 4] ≤ large := by rw [dev_two]; exact ⟨hs2, hl⟩
  rw [C79_sigma_formula_partial op small large hs [0, 4] hd hb 0 (by simp), C79_sigma_formula_partial op small large hs [0, 4] hd hb 1 (by simp), dev_two]
  norm_num [shareOf]

/-- **C79 (the scaling parameter, violated).** It is documented that larger values of the parameter lead to more equal probabilities, and smaller values emphasize the differences. This is not the
case: of two candidates with the fitness values 0 and 4, the first one is never selected, however large the parameter is, and a larger parameter does not bring the probabilities closer to each
other. -/
theorem C79_sigma_scale_violated (small large : ℝ) (hs : 0 < small) (hs2 : small ≤ 2) (hl : 2 ≤ large) :
    (¬ ∀ f : List ℝ, ∀ i j : Nat, i < f.length → j < f.length → ∃ (scale : ℝ) (op : SigmaOperator ℝ), SigmaOperator.make scale = some op ∧
      |chance (op.select Real.sqrt small large f) i - chance (op.select Real.sqrt small large f) j| < 1 / 2) ∧
    (¬ ∀ (f : List ℝ) (i j : Nat) (fi fj : ℝ), f[i]? = some fi → f[j]? = some fj → fi < fj → ∀ (op op' : SigmaOperator ℝ) (scale : ℝ), op.scale < scale → op.setScale scale = some op' →
      chance (op'.select Real.sqrt small large f) j - chance (op'.select Real.sqrt small large f) i <
        chance (op.select Real.sqrt small large f) j - chance (op.select Real.sqrt small large f) i) := by
  constructor
  · intro h
    obtain ⟨scale, op, -, h2⟩ := h [0, 4] 0 1 (by simp) (by simp)
    rw [(sigma_two op small large hs hs2 hl).1, (sigma_two op small large hs hs2 hl).2] at h2
    norm_num at h2
  · intro h
    have h2 := h [0, 4] 0 1 0 4 rfl rfl (by norm_num) ⟨1⟩ ⟨3⟩ 3 (by norm_num) (by simp [SigmaOperator.setScale])
    rw [(sigma_two ⟨1⟩ small large hs hs2 hl).1, (sigma_two ⟨1⟩ small large hs hs2 hl).2, (sigma_two ⟨3⟩ small large hs hs2 hl).1, (sigma_two ⟨3⟩ small large hs hs2 hl).2] at h2
    exact absurd h2 (lt_irrefl _)

/-! ### Boltzmann selection -/

/-- The fitness values `f` lie between `m` and `M`, which are two of them, and the difference of these is within the range of the normal numbers. -/
structure Spread (small large : ℝ) (f : List ℝ) (m M : ℝ) : Prop where
  low : m ∈ f
  high : M ∈ f
  between : ∀ x ∈ f, m ≤ x ∧ x ≤ M
  normal : small ≤ M - m ∧ M - m ≤ large

/-- **C79 (Boltzmann selection, the formula).** The probability of a candidate is proportional to `exp (f / (D T))`, where `T` is the temperature of the generation, and `D` is the difference of the
greatest and the least fitness of the population. (Documented: proportional to `exp (f / T)`.) The temperature is so high that `exp (1 / T)` does not overflow. -/
theorem C79_boltzmann_formula_partial (op : BoltzmannOperator ℝ) (gen maxGen : Nat) (T : ℝ) (hT : op.temperature gen maxGen = T) (hT0 : 0 < T) (small large : ℝ) (hs : 0 < small)
    (hexp : Real.exp (1 / T) ≤ large) (f : List ℝ) (m M : ℝ) (hf : Spread small large f m M) (i : Nat) (hi : i < f.length) :
    chance (op.select Real.exp small large gen maxGen f) i = shareOf (f.map (fun x => Real.exp (x / ((M - m) * T)))) i := by
  obtain ⟨hm, hM, hr, hD⟩ := hf
  have hne : f ≠ [] := List.ne_nil_of_mem hm
  obtain ⟨m', hm', hmem', hmin'⟩ := minElement_get f hne
  obtain ⟨M', hM', hMem', hmax'⟩ := maxElement_get f hne
  have e1 : m' = m := le_antisymm (hmin' m hm) (hr m' hmem').1
  have e2 : M' = M := le_antisymm (hr M' hMem').2 (hmax' M hM)
  subst e1 e2
  have hdf : clampTo (M' - m') small large = M' - m' := by unfold clampTo; rw [if_neg (not_lt.mpr hD.1), if_neg (not_lt.mpr hD.2)]
  have hd0 : 0 < M' - m' := lt_of_lt_of_le hs hD.1
  have hle : ∀ x ∈ f, Real.exp ((x / (M' - m') - m' / (M' - m')) / T) ≤ large := by
    intro x hx
    refine le_trans (Real.exp_le_exp.mpr ?_) hexp
    apply div_le_div_of_nonneg_right _ hT0.le
    rw [← sub_div, div_le_one hd0]
    linarith [(hr x hx).2]
  have hw : boltzmannWeights Real.exp small large T f = some (f.map (fun x => Real.exp ((x / (M' - m') - m' / (M' - m')) / T))) := by
    simp only [boltzmannWeights, hm', hM', Option.bind_eq_bind, Option.bind_some, hdf, Option.pure_def, Option.some.injEq]
    apply List.map_congr_left
    intro x hx
    split
    · rfl
    · rename_i h
      exact le_antisymm (not_lt.mp h) (hle x hx)
  have hsel : SelectsByWeight (f.map (fun x => Real.exp ((x / (M' - m') - m' / (M' - m')) / T))) (op.select Real.exp small large gen maxGen f) := by
    have heq : op.select Real.exp small large gen maxGen f =
        fun r => (weightsToCdf small large (f.map (fun x => Real.exp ((x / (M' - m') - m' / (M' - m')) / T)))).bind (fun cdf => sampleCdf cdf r) := by
      funext r; simp only [BoltzmannOperator.select, boltzmannSelect, hT, hw, Option.bind_eq_bind, Option.bind_some]
    rw [heq]
    refine selects_of_weights small large hs _ (by simpa using hne) ?_
    intro y hy
    obtain ⟨x, hx, rfl⟩ := List.mem_map.mp hy
    exact ⟨(Real.exp_pos _).le, hle x hx⟩
  have hposw : ∀ y ∈ f.map (fun x => Real.exp ((x / (M' - m') - m' / (M' - m')) / T)), 0 < y := by
    intro y hy
    obtain ⟨x, _, rfl⟩ := List.mem_map.mp hy
    exact Real.exp_pos _
  rw [chance_of_weights hsel (fun x hx => (hposw x hx).le) (List.sum_pos _ hposw (by simpa using hne)) i (by simpa using hi)]
  rw [← shareOf_map_mul (Real.exp (-(m' / ((M' - m') * T)))) (ne_of_gt (Real.exp_pos _)) (f.map (fun x => Real.exp (x / ((M' - m') * T)))) i, List.map_map]
  congr 1
  apply List.map_congr_left
  intro x _
  simp only [Function.comp_apply]
  rw [← Real.exp_add]
  congr 1
  field_simp
  ring

theorem spread_two (large : ℝ) (hl : 2 ≤ large) : Spread 1 large [0, 2] 0 2 :=
  ⟨by simp, by simp, by
    intro x hx
    simp only [List.mem_cons, List.not_mem_nil, or_false] at hx
    rcases hx with rfl | rfl <;> norm_num, by constructor <;> linarith⟩

/-- **C79 (Boltzmann selection, the documented formula, violated).** For the fitness values 0 and 2 and the temperature 1, the documented probability of the second candidate is
`e^2 / (1 + e^2)`; the actual one is `e / (1 + e)`. -/
theorem C79_boltzmann_formula_violated (large : ℝ) (hl : 3 ≤ large) :
    ∃ (op : BoltzmannOperator ℝ) (f : List ℝ), chance (op.select Real.exp 1 large 0 1 f) 1 = Real.exp 1 / (1 + Real.exp 1) ∧
      shareOf (f.map (fun x => Real.exp (x / op.temperature 0 1))) 1 = Real.exp 2 / (1 + Real.exp 2) ∧
      chance (op.select Real.exp 1 large 0 1 f) 1 ≠ shareOf (f.map (fun x => Real.exp (x / op.temperature 0 1))) 1 := by
  have he := Real.exp_one_lt_d9
  have h1 : chance ((⟨fun _ _ => 1⟩ : BoltzmannOperator ℝ).select Real.exp 1 large 0 1 [0, 2]) 1 = Real.exp 1 / (1 + Real.exp 1) := by
    rw [C79_boltzmann_formula_partial ⟨fun _ _ => 1⟩ 0 1 1 rfl (by norm_num) 1 large (by norm_num) (by norm_num; linarith) [0, 2] 0 2 (spread_two large (by linarith)) 1 (by simp)]
    norm_num [shareOf]
  have h2 : shareOf ([0, 2].map (fun x => Real.exp (x / (⟨fun _ _ => 1⟩ : BoltzmannOperator ℝ).temperature 0 1))) 1 = Real.exp 2 / (1 + Real.exp 2) := by
    norm_num [shareOf]
  refine ⟨⟨fun _ _ => 1⟩, [0, 2], h1, h2, ?_⟩
  rw [h1, h2, Ne, div_eq_div_iff (by positivity) (by positivity)]
  have := Real.exp_lt_exp.mpr (show (1 : ℝ) < 2 by norm_num)
  nlinarith

theorem shareOf_map_exp (f : List ℝ) (g : ℝ → ℝ) (i : Nat) (hi : i < f.length) : shareOf (f.map (fun x => Real.exp (g x))) i = Real.exp (g f[i]) / (f.map (fun x => Real.exp (g x))).sum := by
  unfold shareOf
  rw [List.getD_eq_getElem?_getD, List.getElem?_map, List.getElem?_eq_getElem hi]
  simp

theorem expSum_pos (f : List ℝ) (hne : f ≠ []) (g : ℝ → ℝ) : 0 < (f.map (fun x => Real.exp (g x))).sum := by
  apply List.sum_pos _ _ (by simpa using hne)
  intro y hy
  obtain ⟨x, _, rfl⟩ := List.mem_map.mp hy
  exact Real.exp_pos _

/-- Two generations of runs, the temperature of the first of which is lower. -/
structure Cooler (large : ℝ) (op : BoltzmannOperator ℝ) (gen maxGen gen' maxGen' : Nat) : Prop where
  pos : 0 < op.temperature gen maxGen
  lower : op.temperature gen maxGen < op.temperature gen' maxGen'
  finite : Real.exp (1 / op.temperature gen maxGen) ≤ large

theorem Cooler.finite' {large : ℝ} {op : BoltzmannOperator ℝ} {gen maxGen gen' maxGen' : Nat} (h : Cooler large op gen maxGen gen' maxGen') :
    Real.exp (1 / op.temperature gen' maxGen') ≤ large :=
  le_trans (Real.exp_le_exp.mpr (one_div_le_one_div_of_le h.pos h.lower.le)) h.finite

/-- **C79 (the temperature).** With the same population, a lower temperature increases the probability of the better one of two candidates in proportion to that of the other one; it
increases the probability of a best candidate, and decreases that of a worst one. -/
theorem C79_boltzmann_temperature (op : BoltzmannOperator ℝ) (gen maxGen gen' maxGen' : Nat) (small large : ℝ) (hs : 0 < small) (hc : Cooler large op gen maxGen gen' maxGen')
    (f : List ℝ) (m M : ℝ) (hf : Spread small large f m M) :
    (∀ (i j : Nat) (fi fj : ℝ), f[i]? = some fi → f[j]? = some fj → fi < fj →
      chance (op.select Real.exp small large gen' maxGen' f) j / chance (op.select Real.exp small large gen' maxGen' f) i <
        chance (op.select Real.exp small large gen maxGen f) j / chance (op.select Real.exp small large gen maxGen f) i) ∧
    (∀ j : Nat, f[j]? = some M → chance (op.select Real.exp small large gen' maxGen' f) j < chance (op.select Real.exp small large gen maxGen f) j) ∧
    (∀ i : Nat, f[i]? = some m → chance (op.select Real.exp small large gen maxGen f) i < chance (op.select Real.exp small large gen' maxGen' f) i) := by
  have hne : f ≠ [] := List.ne_nil_of_mem hf.low
  have hD : 0 < M - m := lt_of_lt_of_le hs hf.normal.1
  have hT := hc.pos
  have hT' : 0 < op.temperature gen' maxGen' := lt_trans hc.pos hc.lower
  have hlow := hc.lower
  have e1 := fun i hi => C79_boltzmann_formula_partial op gen maxGen _ rfl hT small large hs hc.finite f m M hf i hi
  have e2 := fun i hi => C79_boltzmann_formula_partial op gen' maxGen' _ rfl hT' small large hs hc.finite' f m M hf i hi
  generalize op.temperature gen maxGen = T at *
  generalize op.temperature gen' maxGen' = T' at *
  have hS := expSum_pos f hne (fun x => x / ((M - m) * T))
  have hS' := expSum_pos f hne (fun x => x / ((M - m) * T'))
  have hinv : 1 / ((M - m) * T') < 1 / ((M - m) * T) := one_div_lt_one_div_of_lt (by positivity) (mul_lt_mul_of_pos_left hlow hD)
  have hdiff : ∀ d : ℝ, 0 < d → d / ((M - m) * T') < d / ((M - m) * T) := by
    intro d hd
    rw [div_eq_mul_one_div, div_eq_mul_one_div d]
    exact mul_lt_mul_of_pos_left hinv hd
  have hdiff0 : ∀ d : ℝ, 0 ≤ d → d / ((M - m) * T') ≤ d / ((M - m) * T) := by
    intro d hd
    rcases eq_or_lt_of_le hd with rfl | h
    · simp
    · exact (hdiff d h).le
  refine ⟨?_, ?_, ?_⟩
  · intro i j fi fj hi hj hlt
    obtain ⟨hil, hfi⟩ := List.getElem?_eq_some_iff.mp hi
    obtain ⟨hjl, hfj⟩ := List.getElem?_eq_some_iff.mp hj
    rw [e1 i hil, e1 j hjl, e2 i hil, e2 j hjl]
    simp only [shareOf_map_exp _ _ _ hil, shareOf_map_exp _ _ _ hjl, hfi, hfj]
    rw [div_div_div_cancel_right₀ (ne_of_gt hS'), div_div_div_cancel_right₀ (ne_of_gt hS), ← Real.exp_sub, ← Real.exp_sub, Real.exp_lt_exp, ← sub_div, ← sub_div]
    exact hdiff _ (by linarith)
  · intro j hj
    obtain ⟨hjl, hfj⟩ := List.getElem?_eq_some_iff.mp hj
    rw [e1 j hjl, e2 j hjl]
    simp only [shareOf_map_exp _ _ _ hjl, hfj]
    rw [div_lt_div_iff₀ hS' hS, ← List.sum_map_mul_left, ← List.sum_map_mul_left]
    simp only [← Real.exp_add]
    apply List.sum_lt_sum
    · intro x hx
      apply Real.exp_le_exp.mpr
      have := hdiff0 (M - x) (by linarith [(hf.between x hx).2])
      rw [sub_div, sub_div] at this
      linarith
    · refine ⟨m, hf.low, Real.exp_lt_exp.mpr ?_⟩
      have := hdiff (M - m) hD
      rw [sub_div, sub_div] at this
      linarith
  · intro i hi
    obtain ⟨hil, hfi⟩ := List.getElem?_eq_some_iff.mp hi
    rw [e1 i hil, e2 i hil]
    simp only [shareOf_map_exp _ _ _ hil, hfi]
    rw [div_lt_div_iff₀ hS hS', ← List.sum_map_mul_left, ← List.sum_map_mul_left]
    simp only [← Real.exp_add]
    apply List.sum_lt_sum
    · intro x hx
      apply Real.exp_le_exp.mpr
      have := hdiff0 (x - m) (by linarith [(hf.between x hx).1])
      rw [sub_div, sub_div] at this
      linarith
    · refine ⟨M, hf.high, Real.exp_lt_exp.mpr ?_⟩
      have := hdiff (M - m) hD
      rw [sub_div, sub_div] at this
      linarith

/-- **C79 (high temperatures).** At the temperature `T` all probabilities are within a factor of `exp (1 / T)` of the same probability, and those of a best and a worst candidate differ by
exactly this factor. -/
theorem C79_boltzmann_bounds (op : BoltzmannOperator ℝ) (gen maxGen : Nat) (T : ℝ) (hT : op.temperature gen maxGen = T) (hT0 : 0 < T) (small large : ℝ) (hs : 0 < small)
    (hexp : Real.exp (1 / T) ≤ large) (f : List ℝ) (m M : ℝ) (hf : Spread small large f m M) :
    (∀ i, i < f.length → Real.exp (-(1 / T)) / f.length ≤ chance (op.select Real.exp small large gen maxGen f) i ∧
      chance (op.select Real.exp small large gen maxGen f) i ≤ Real.exp (1 / T) / f.length) ∧
    (∀ i j, f[i]? = some m → f[j]? = some M →
      chance (op.select Real.exp small large gen maxGen f) j / chance (op.select Real.exp small large gen maxGen f) i = Real.exp (1 / T)) := by
  have hne : f ≠ [] := List.ne_nil_of_mem hf.low
  have hD : 0 < M - m := lt_of_lt_of_le hs hf.normal.1
  have e1 := fun i hi => C79_boltzmann_formula_partial op gen maxGen T hT hT0 small large hs hexp f m M hf i hi
  have hS := expSum_pos f hne (fun x => x / ((M - m) * T))
  constructor
  · intro i hi
    have hn : (0 : ℝ) < f.length := by exact_mod_cast (by omega : 0 < f.length)
    have hfi := hf.between f[i] (List.getElem_mem hi)
    have hle : ∀ x y : ℝ, x ∈ f → y ∈ f → x / ((M - m) * T) ≤ 1 / T + y / ((M - m) * T) := by
      intro x y hx hy
      have h1 := (hf.between x hx).2
      have h2 := (hf.between y hy).1
      have h3 : (x - y) / ((M - m) * T) ≤ (M - m) / ((M - m) * T) := div_le_div_of_nonneg_right (by linarith) (by positivity)
      rw [sub_div] at h3
      have h4 : (M - m) / ((M - m) * T) = 1 / T := by field_simp
      linarith
    have hconst : ∀ c : ℝ, (f.map (fun _ => c)).sum = f.length * c := by
      intro c
      rw [List.map_const', List.sum_replicate, nsmul_eq_mul]
    rw [e1 i hi]
    simp only [shareOf_map_exp _ _ _ hi]
    constructor
    · rw [div_le_div_iff₀ hn hS, ← List.sum_map_mul_left, mul_comm _ (f.length : ℝ), ← hconst]
      apply List.sum_le_sum
      intro x hx
      rw [← Real.exp_add]
      apply Real.exp_le_exp.mpr
      have := hle x f[i] hx (List.getElem_mem hi)
      linarith
    · rw [div_le_div_iff₀ hS hn, ← List.sum_map_mul_left, mul_comm _ (f.length : ℝ), ← hconst]
      apply List.sum_le_sum
      intro x hx
      rw [← Real.exp_add]
      apply Real.exp_le_exp.mpr
      exact hle f[i] x (List.getElem_mem hi) hx
  · intro i j hi hj
    obtain ⟨hil, hfi⟩ := List.getElem?_eq_some_iff.mp hi
    obtain ⟨hjl, hfj⟩ := List.getElem?_eq_some_iff.mp hj
    rw [e1 i hil, e1 j hjl]
    simp only [shareOf_map_exp _ _ _ hil, shareOf_map_exp _ _ _ hjl, hfi, hfj]
    rw [div_div_div_cancel_right₀ (ne_of_gt hS), ← Real.exp_sub, ← sub_div]
    congr 1
    field_simp

/-- **C79 (units).** The probabilities do not change if all fitness values are multiplied by a positive number and shifted. -/
theorem C79_boltzmann_units (op : BoltzmannOperator ℝ) (gen maxGen : Nat) (hT0 : 0 < op.temperature gen maxGen) (small large : ℝ) (hs : 0 < small)
    (hexp : Real.exp (1 / op.temperature gen maxGen) ≤ large) (f : List ℝ) (m M : ℝ) (hf : Spread small large f m M) (a b : ℝ) (ha : 0 < a)
    (hr : small ≤ a * (M - m) ∧ a * (M - m) ≤ large) (i : Nat) (hi : i < f.length) :
    chance (op.select Real.exp small large gen maxGen (f.map (fun x => a * x + b))) i = chance (op.select Real.exp small large gen maxGen f) i := by
  have hD : 0 < M - m := lt_of_lt_of_le hs hf.normal.1
  have hf' : Spread small large (f.map (fun x => a * x + b)) (a * m + b) (a * M + b) := by
    refine ⟨List.mem_map_of_mem hf.low, List.mem_map_of_mem hf.high, ?_, ?_⟩
    · intro y hy
      obtain ⟨x, hx, rfl⟩ := List.mem_map.mp hy
      obtain ⟨h1, h2⟩ := hf.between x hx
      constructor
      · nlinarith
      · nlinarith
    · have : a * M + b - (a * m + b) = a * (M - m) := by ring
      rw [this]; exact hr
  rw [C79_boltzmann_formula_partial op gen maxGen _ rfl hT0 small large hs hexp f m M hf i hi,
    C79_boltzmann_formula_partial op gen maxGen _ rfl hT0 small large hs hexp _ _ _ hf' i (by simpa using hi), List.map_map]
  generalize op.temperature gen maxGen = T at *
  rw [← shareOf_map_mul (Real.exp (b / (a * (M - m) * T))) (ne_of_gt (Real.exp_pos _)) (f.map (fun x => Real.exp (x / ((M - m) * T)))) i, List.map_map]
  congr 1
  apply List.map_congr_left
  intro x _
  simp only [Function.comp_apply]
  rw [← Real.exp_add]
  congr 1
  have : a * M + b - (a * m + b) = a * (M - m) := by ring
  rw [this]
  field_simp
  ring

/-- **C79 (the default temperatures).** The default temperature is always between 0.2 and 4.2, and decreases from generation to generation; it is above 4 in the first generation, and falls below 1/4
until the maximum number of generations is reached. -/
theorem C79_boltzmann_default (maxGen : Nat) (hmax : 0 < maxGen) :
    (∀ gen, 1 / 5 < boltzmannDefaultTemp Real.exp gen maxGen ∧ boltzmannDefaultTemp Real.exp gen maxGen < 21 / 5) ∧
    (∀ gen gen', gen < gen' → boltzmannDefaultTemp Real.exp gen' maxGen < boltzmannDefaultTemp Real.exp gen maxGen) ∧
    4 < boltzmannDefaultTemp Real.exp 0 maxGen ∧ boltzmannDefaultTemp Real.exp maxGen maxGen < 1 / 4 := by
  have hm : (0 : ℝ) < maxGen := by exact_mod_cast hmax
  have he := Real.exp_one_gt_d9
  have hT : ∀ gen, boltzmannDefaultTemp Real.exp gen maxGen = 21 / 5 - 4 / (1 + Real.exp (-10 * ((gen : ℝ) / maxGen) + 3)) := by
    intro gen
    simp only [boltzmannDefaultTemp]
    ring
  refine ⟨?_, ?_, ?_, ?_⟩
  · intro gen
    rw [hT]
    have h1 := Real.exp_pos (-10 * ((gen : ℝ) / maxGen) + 3)
    have h2 : 0 < 4 / (1 + Real.exp (-10 * ((gen : ℝ) / maxGen) + 3)) := by positivity
    have h3 : 4 / (1 + Real.exp (-10 * ((gen : ℝ) / maxGen) + 3)) < 4 := by
      rw [div_lt_iff₀ (by linarith)]; linarith
    constructor <;> linarith
  · intro gen gen' hlt
    rw [hT, hT]
    have h1 : (gen : ℝ) / maxGen < gen' / maxGen := div_lt_div_of_pos_right (by exact_mod_cast hlt) hm
    have h2 : Real.exp (-10 * ((gen' : ℝ) / maxGen) + 3) < Real.exp (-10 * ((gen : ℝ) / maxGen) + 3) := Real.exp_lt_exp.mpr (by linarith)
    have h3 := Real.exp_pos (-10 * ((gen' : ℝ) / maxGen) + 3)
    have h4 : 4 / (1 + Real.exp (-10 * ((gen : ℝ) / maxGen) + 3)) < 4 / (1 + Real.exp (-10 * ((gen' : ℝ) / maxGen) + 3)) :=
      div_lt_div_of_pos_left (by norm_num) (by linarith) (by linarith)
    linarith
  · rw [hT]
    have h1 : Real.exp 3 = Real.exp 1 ^ 3 := by rw [← Real.exp_nat_mul]; norm_num
    have h2 : (2.7 : ℝ) ^ 3 < Real.exp 1 ^ 3 := pow_lt_pow_left₀ (by linarith) (by norm_num) (by norm_num)
    have h3 : 4 / (1 + Real.exp 3) < 1 / 5 := by
      rw [div_lt_iff₀ (by positivity), h1]
      norm_num at h2
      linarith
    simp only [Nat.cast_zero, zero_div, mul_zero, zero_add]
    linarith
  · rw [hT, div_self (ne_of_gt hm)]
    have h1 : Real.exp 7 = Real.exp 1 ^ 7 := by rw [← Real.exp_nat_mul]; norm_num
    have h2 : (2.7 : ℝ) ^ 7 < Real.exp 1 ^ 7 := pow_lt_pow_left₀ (by linarith) (by norm_num) (by norm_num)
    have h3 : Real.exp (-10 * 1 + 3) * Real.exp 7 = 1 := by rw [← Real.exp_add]; norm_num
    have h4 := Real.exp_pos (-10 * 1 + 3)
    have h5 : Real.exp (-10 * 1 + 3) < 1 / 100 := by
      rw [← h1] at h2
      norm_num at h2
      by_contra hcon
      have h7 := mul_le_mul (not_lt.mp hcon) h2.le (by norm_num) h4.le
      rw [h3] at h7
      norm_num at h7
    have h6 : 79 / 20 < 4 / (1 + Real.exp (-10 * 1 + 3)) := by
      rw [lt_div_iff₀ (by linarith)]
      linarith
    linarith

/-- **C79 (the default operator in a run).** With the default temperatures, a best candidate of a population is less than 4/3 times as likely to be selected as a worst one in the first generation, and more
than 50 times as likely when the maximum number of generations is reached; for the same population, the probability of a best candidate increases with every generation. -/
theorem C79_boltzmann_run (maxGen : Nat) (hmax : 0 < maxGen) (small large : ℝ) (hs : 0 < small) (hexp : Real.exp 5 ≤ large) (f : List ℝ) (m M : ℝ) (hf : Spread small large f m M)
    (i j : Nat) (hi : f[i]? = some m) (hj : f[j]? = some M) (op : BoltzmannOperator ℝ) (hop : op.temperature = boltzmannDefaultTemp Real.exp) :
    chance (op.select Real.exp small large 0 maxGen f) j < 4 / 3 * chance (op.select Real.exp small large 0 maxGen f) i ∧
    50 * chance (op.select Real.exp small large maxGen maxGen f) i < chance (op.select Real.exp small large maxGen maxGen f) j ∧
    ∀ gen, chance (op.select Real.exp small large gen maxGen f) j < chance (op.select Real.exp small large (gen + 1) maxGen f) j := by
  obtain ⟨hrange, hdec, hfirst, hlast⟩ := C79_boltzmann_default maxGen hmax
  have hTf : ∀ gen, op.temperature gen maxGen = boltzmannDefaultTemp Real.exp gen maxGen := fun gen => by rw [hop]
  have hfin : ∀ gen, Real.exp (1 / boltzmannDefaultTemp Real.exp gen maxGen) ≤ large := by
    intro gen
    refine le_trans (Real.exp_le_exp.mpr ?_) hexp
    have := (hrange gen).1
    rw [div_le_iff₀ (by linarith)]
    linarith
  have hpos : ∀ gen, 0 < chance (op.select Real.exp small large gen maxGen f) i := by
    intro gen
    have hil := (List.getElem?_eq_some_iff.mp hi).1
    have := ((C79_boltzmann_bounds op gen maxGen _ (hTf gen) (by linarith [(hrange gen).1]) small large hs (hfin gen) f m M hf).1 i hil).1
    have hn : (0 : ℝ) < f.length := by exact_mod_cast (by omega : 0 < f.length)
    have := div_pos (Real.exp_pos (-(1 / boltzmannDefaultTemp Real.exp gen maxGen))) hn
    linarith
  have hodds : ∀ gen, chance (op.select Real.exp small large gen maxGen f) j =
      Real.exp (1 / boltzmannDefaultTemp Real.exp gen maxGen) * chance (op.select Real.exp small large gen maxGen f) i := by
    intro gen
    have := (C79_boltzmann_bounds op gen maxGen _ (hTf gen) (by linarith [(hrange gen).1]) small large hs (hfin gen) f m M hf).2 i j hi hj
    rw [div_eq_iff (ne_of_gt (hpos gen))] at this
    exact this
  refine ⟨?_, ?_, ?_⟩
  · rw [hodds]
    apply mul_lt_mul_of_pos_right _ (hpos 0)
    have h1 : 1 / boltzmannDefaultTemp Real.exp 0 maxGen < 1 / 4 := one_div_lt_one_div_of_lt (by norm_num) hfirst
    refine lt_trans (Real.exp_lt_exp.mpr h1) ?_
    have h2 : Real.exp (1 / 4) ^ 4 = Real.exp 1 := by rw [← Real.exp_nat_mul]; norm_num
    by_contra hcon
    have h3 : ((4 : ℝ) / 3) ^ 4 ≤ Real.exp (1 / 4) ^ 4 := pow_le_pow_left₀ (by norm_num) (not_lt.mp hcon) 4
    rw [h2] at h3
    have := Real.exp_one_lt_d9
    norm_num at h3
    linarith
  · rw [hodds maxGen]
    apply mul_lt_mul_of_pos_right _ (hpos maxGen)
    have h0 := (hrange maxGen).1
    have h1 : 4 < 1 / boltzmannDefaultTemp Real.exp maxGen maxGen := by
      rw [lt_div_iff₀ (by linarith)]; linarith
    refine lt_trans ?_ (Real.exp_lt_exp.mpr h1)
    have h2 : Real.exp 4 = Real.exp 1 ^ 4 := by rw [← Real.exp_nat_mul]; norm_num
    have he := Real.exp_one_gt_d9
    have h3 : (2.7 : ℝ) ^ 4 < Real.exp 1 ^ 4 := pow_lt_pow_left₀ (by linarith) (by norm_num) (by norm_num)
    rw [h2]
    norm_num at h3
    linarith
  · intro gen
    apply (C79_boltzmann_temperature op (gen + 1) maxGen gen maxGen small large hs ⟨?_, ?_, ?_⟩ f m M hf).2.1 j hj
    · rw [hTf]; linarith [(hrange (gen + 1)).1]
    · rw [hTf, hTf]; exact hdec gen (gen + 1) (by omega)
    · rw [hTf]; exact hfin (gen + 1)

/-- Three candidates with the fitness values 0, 1 and 2 in a run of up to 100 generations. -/
example (large : ℝ) (hl : Real.exp 5 ≤ large) :
    50 * chance ((⟨boltzmannDefaultTemp Real.exp⟩ : BoltzmannOperator ℝ).select Real.exp 1 large 100 100 [0, 1, 2]) 0 <
      chance ((⟨boltzmannDefaultTemp Real.exp⟩ : BoltzmannOperator ℝ).select Real.exp 1 large 100 100 [0, 1, 2]) 2 := by
  have h5 : (2 : ℝ) ≤ large := by
    have := Real.add_one_le_exp (5 : ℝ)
    linarith
  refine (C79_boltzmann_run 100 (by norm_num) 1 large (by norm_num) hl [0, 1, 2] 0 2 ⟨by simp, by simp, ?_, by constructor <;> linarith⟩ 0 2 rfl rfl _ rfl).2.1
  intro x hx
  simp only [List.mem_cons, List.not_mem_nil, or_false] at hx
  rcases hx with rfl | rfl | rfl <;> norm_num

end Gapp.Props
