import Verif.Proofs.Problems
/-!
# C54: decoding of binary variables, string matching, the travelling salesman
-/

namespace Gapp.Props

open Gapp.Model Gapp.Spec

section Decode

variable {K : Type} [Field K] [LinearOrder K] [IsStrictOrderedRing K]

/-- `2^n - 1` is positive. -/
theorem decode_scale_pos (n : Nat) (hn : 0 < n) : (0 : K) < 2 ^ n - 1 := by
  have : (1 : K) < 2 ^ n := one_lt_pow₀ one_lt_two (by omega)
  linarith

/-- C54: every variable is the affine image of the number that its bits encode: 0 is mapped to the lower bound, the largest number to the upper bound. There are as many variables as bounds. -/
theorem C54_decode_formula (bchrom : List Bool) (bounds : List (K × K)) (n : Nat) (hn : 0 < n)
    (hlen : bchrom.length = n * bounds.length) :
    ∃ vars, decodeVars bchrom bounds n = some vars ∧ vars.length = bounds.length ∧
      ∀ i (hi : i < bounds.length), vars[i]? =
        some (bounds[i].1 + (bounds[i].2 - bounds[i].1) * ((bitsNumber (varBitsOf bchrom n i) : Nat) / (2 ^ n - 1))) := by
  unfold decodeVars
  rw [if_pos hlen, if_neg (by omega)]
  refine ⟨_, rfl, by simp, fun i hi => ?_⟩
  rw [List.getElem?_map, List.getElem?_range hi]
  show some (decodeVar _ _ _ _ _) = _
  rw [decodeVar_eq, getD_lt hi]
  congr 1
  ring

/-- C54: the variables are within their bounds; all-zero bits give the lower bound and all-one bits the upper bound, and nothing else does if the bounds differ. -/
theorem C54_decode_within_bounds (bchrom : List Bool) (bounds : List (K × K)) (n : Nat) (hn : 0 < n)
    (hlen : bchrom.length = n * bounds.length) (vars : List K) (h : decodeVars bchrom bounds n = some vars)
    (i : Nat) (hi : i < bounds.length) (hb : bounds[i].1 ≤ bounds[i].2) (x : K) (hx : vars[i]? = some x) :
    bounds[i].1 ≤ x ∧ x ≤ bounds[i].2 ∧
      (varBitsOf bchrom n i = List.replicate n false → x = bounds[i].1) ∧
      (varBitsOf bchrom n i = List.replicate n true → x = bounds[i].2) := by
  obtain ⟨vars', e, _, hv⟩ := C54_decode_formula bchrom bounds n hn hlen
  rw [h] at e; cases e
  rw [hv i hi] at hx
  cases hx
  have hp := decode_scale_pos (K := K) n hn
  have hl := varBitsOf_length bchrom n bounds.length i hlen hi
  have hlt := bitsNumber_lt (varBitsOf bchrom n i)
  rw [hl] at hlt
  have h1 : ((bitsNumber (varBitsOf bchrom n i) : Nat) : K) ≤ 2 ^ n - 1 := by
    have : bitsNumber (varBitsOf bchrom n i) + 1 ≤ 2 ^ n := hlt
    have h' : ((bitsNumber (varBitsOf bchrom n i) + 1 : Nat) : K) ≤ ((2 ^ n : Nat) : K) := Nat.cast_le.mpr this
    push_cast at h'
    linarith
  have hq0 : (0 : K) ≤ (bitsNumber (varBitsOf bchrom n i) : Nat) / (2 ^ n - 1) := div_nonneg (Nat.cast_nonneg _) hp.le
  have hq1 : ((bitsNumber (varBitsOf bchrom n i) : Nat) : K) / (2 ^ n - 1) ≤ 1 := (div_le_one hp).mpr h1
  have hd : (0 : K) ≤ bounds[i].2 - bounds[i].1 := by linarith
  refine ⟨?_, ?_, ?_, ?_⟩
  · have := mul_nonneg hd hq0
    linarith
  · have := mul_le_mul_of_nonneg_left hq1 hd
    linarith
  · intro hz
    rw [hz, bitsNumber_replicate_false]
    simp
  · intro ho
    have h2 := bitsNumber_replicate_true n
    have h' : ((bitsNumber (List.replicate n true) + 1 : Nat) : K) = ((2 ^ n : Nat) : K) := by rw [h2]
    push_cast at h'
    rw [ho, show ((bitsNumber (List.replicate n true) : Nat) : K) = 2 ^ n - 1 by linarith, div_self hp.ne']
    ring

/-- C54: the encoded numbers are mapped strictly monotonically. -/
theorem C54_decode_strictly_monotone (bchrom bchrom' : List Bool) (bounds : List (K × K)) (n : Nat) (hn : 0 < n)
    (hlen : bchrom.length = n * bounds.length) (hlen' : bchrom'.length = n * bounds.length)
    (vars vars' : List K) (h : decodeVars bchrom bounds n = some vars) (h' : decodeVars bchrom' bounds n = some vars')
    (i : Nat) (hi : i < bounds.length) (hb : bounds[i].1 < bounds[i].2) (x y : K) (hx : vars[i]? = some x) (hy : vars'[i]? = some y) :
    x < y ↔ bitsNumber (varBitsOf bchrom n i) < bitsNumber (varBitsOf bchrom' n i) := by
  obtain ⟨v, e, _, hv⟩ := C54_decode_formula bchrom bounds n hn hlen
  rw [h] at e; cases e
  obtain ⟨v', e', _, hv'⟩ := C54_decode_formula bchrom' bounds n hn hlen'
  rw [h'] at e'; cases e'
  rw [hv i hi] at hx
  rw [hv' i hi] at hy
  cases hx; cases hy
  have hp := decode_scale_pos (K := K) n hn
  have hd : (0 : K) < bounds[i].2 - bounds[i].1 := by linarith
  rw [add_lt_add_iff_left, mul_lt_mul_iff_right₀ hd, div_lt_div_iff_of_pos_right hp, Nat.cast_lt]

/-- C54: a problem that was constructed with `n` bits per variable decodes with `n` bits per variable. -/
theorem C54_decode_bits_per_variable (vars n : Nat) (hv : 0 < vars) (bchrom : List Bool) (bounds : List (K × K)) :
    decodeForInvoke vars (vars * n) bchrom bounds = decodeVars bchrom bounds n := by
  unfold decodeForInvoke
  rw [if_neg (by omega), Nat.mul_div_cancel_left _ hv]

/-- Two variables of three bits: 5 of 7 in [0, 7], 7 of 7 in [-1, 1]. -/
example : decodeVars [true, false, true, true, true, true] [((0 : ℚ), 7), (-1, 1)] 3 = some [5, 1] := by decide +kernel
example : bitsNumber [true, false, true] = 5 := by decide

/-- With zero bits per variable the division is 0 by 0. -/
example : decodeVars [] [((0 : ℚ), 7)] 0 = none := by decide +kernel

end Decode

/-! ## String matching -/

/-- C54: the fitness is the number of positions with the right character; it is at most the length of the target. -/
theorem C54_string_finder_counts (target : List Nat) (chrom : List Int) (hl : chrom.length = target.length) :
    ∃ f, stringFinder target chrom = some f ∧ f = (chrom.zip target).countP (fun p => toByte p.1 = p.2) ∧ f ≤ target.length := by
  unfold stringFinder
  rw [if_pos hl, stringFinderLoop_eq target chrom hl chrom.length 0 0 (by omega)]
  refine ⟨_, rfl, by simp, ?_⟩
  rw [Nat.zero_add, List.drop_zero]
  refine le_trans List.countP_le_length ?_
  rw [List.length_zip]
  exact Nat.min_le_right _ _

/-- C54: for genes within the bounds of the problem, the fitness is the length of the target exactly if the chromosome is the target. -/
theorem C54_string_finder_optimum (target : List Nat) (chrom : List Int) (hl : chrom.length = target.length)
    (hb : ∀ g ∈ chrom, stringFinderBounds.1 ≤ g ∧ g ≤ stringFinderBounds.2) :
    stringFinder target chrom = some target.length ↔ chrom = target.map (fun c : Nat => (c : Int)) := by
  obtain ⟨f, e, hf, _⟩ := C54_string_finder_counts target chrom hl
  have hbyte : ∀ g ∈ chrom, ∀ t : Nat, toByte g = t ↔ g = (t : Int) := by
    intro g hg t
    have := hb g hg
    simp only [stringFinderBounds] at this
    unfold toByte
    omega
  rw [e, Option.some.injEq]
  constructor
  · intro hfl
    rw [hf] at hfl
    have hall : ∀ p ∈ chrom.zip target, decide (toByte p.1 = p.2) = true := by
      apply List.countP_eq_length.mp
      rw [hfl, List.length_zip, hl, Nat.min_self]
    apply List.ext_getElem (by simp [hl])
    intro i h1 h2
    have h3 : i < target.length := by omega
    have hm : (chrom[i], target[i]) ∈ chrom.zip target := by
      rw [List.mem_iff_getElem]
      exact ⟨i, by simp; omega, by simp⟩
    have := of_decide_eq_true (hall _ hm)
    rw [List.getElem_map]
    exact (hbyte _ (List.getElem_mem h1) _).mp this
  · intro hc
    rw [hf]
    have : (chrom.zip target).countP (fun p => decide (toByte p.1 = p.2)) = (chrom.zip target).length := by
      apply List.countP_eq_length.mpr
      intro p hp
      obtain ⟨i, hi, rfl⟩ := List.mem_iff_getElem.mp hp
      have h1 : i < chrom.length := by simp at hi; omega
      have h2 : i < target.length := by simp at hi; omega
      rw [List.getElem_zip]
      simp only [decide_eq_true_eq]
      rw [hbyte _ (List.getElem_mem h1)]
      simp [hc]
    rw [this, List.length_zip, hl, Nat.min_self]

/-- C54: the largest fitness is reachable within the bounds exactly if the target consists of characters from 32 to 127. -/
theorem C54_string_finder_reachable (target : List Nat) :
    (∃ chrom : List Int, chrom.length = target.length ∧ (∀ g ∈ chrom, stringFinderBounds.1 ≤ g ∧ g ≤ stringFinderBounds.2) ∧
      stringFinder target chrom = some target.length) ↔ ∀ c ∈ target, 32 ≤ c ∧ c ≤ 127 := by
  constructor
  · rintro ⟨chrom, hl, hb, hf⟩ c hc
    have e := (C54_string_finder_optimum target chrom hl hb).mp hf
    have := hb (c : Int) (by rw [e]; exact List.mem_map.mpr ⟨c, hc, rfl⟩)
    simp only [stringFinderBounds] at this
    omega
  · intro h
    have hb : ∀ g ∈ target.map (fun c : Nat => (c : Int)), stringFinderBounds.1 ≤ g ∧ g ≤ stringFinderBounds.2 := by
      intro g hg
      obtain ⟨c, hc, rfl⟩ := List.mem_map.mp hg
      have := h c hc
      simp only [stringFinderBounds]
      omega
    exact ⟨_, by simp, hb, (C54_string_finder_optimum target _ (by simp) hb).mpr rfl⟩

/-- "Hi!" against "Hi?". -/
example : stringFinder [72, 105, 33] [72, 105, 63] = some 2 := rfl
example : stringFinder [72, 105, 33] [72, 105, 33] = some 3 := rfl

/-! ## The travelling salesman -/

/-- C54: the fitness of a permutation of all but the last city is the negative length of the closed tour that starts at the last city and visits the others in the order of the permutation. Every city is visited once. -/
theorem C54_tsp_tour_length (cities : List (ℝ × ℝ)) (h2 : 2 ≤ cities.length) (chrom : List Nat)
    (hperm : chrom.Perm (List.range (cities.length - 1))) :
    tspInvoke cities chrom = some (-tourLength (cities.getD (cities.length - 1) (0, 0)) (chrom.map (fun i => cities.getD i (0, 0)))) ∧
      (cities.getD (cities.length - 1) (0, 0) :: chrom.map (fun i => cities.getD i (0, 0))).Perm cities := by
  have hm : ∀ a ∈ chrom, a < cities.length := by
    intro a ha
    have := List.mem_range.mp ((hperm.mem_iff).mp ha)
    omega
  refine ⟨tspInvoke_eq cities h2 chrom (by rw [hperm.length_eq, List.length_range]) hm, ?_⟩
  have e : (List.range cities.length).map (fun i => cities.getD i (0, 0)) = cities := by
    apply List.ext_getElem (by simp)
    intro i h1 h2
    rw [List.getElem_map, List.getElem_range, getD_lt h2]
  conv => rhs; rw [← e]
  have h3 : cities.length = cities.length - 1 + 1 := by omega
  rw [← List.map_cons (f := fun i => cities.getD i (0, 0))]
  refine List.Perm.map _ ?_
  conv => rhs; rw [h3]
  rw [List.range_succ]
  exact (hperm.cons _).trans (List.perm_append_singleton _ _).symm

/-- C54: the fitness is never positive, and a tour and the reversed tour have the same fitness. -/
theorem C54_tsp_reversal (cities : List (ℝ × ℝ)) (h2 : 2 ≤ cities.length) (chrom : List Nat)
    (hperm : chrom.Perm (List.range (cities.length - 1))) :
    tspInvoke cities chrom.reverse = tspInvoke cities chrom ∧ ∃ f, tspInvoke cities chrom = some f ∧ f ≤ 0 := by
  have e1 := (C54_tsp_tour_length cities h2 chrom hperm).1
  have e2 := (C54_tsp_tour_length cities h2 chrom.reverse ((List.reverse_perm _).trans hperm)).1
  refine ⟨?_, _, e1, ?_⟩
  · rw [e1, e2]
    congr 2
    unfold tourLength
    rw [← pathLength_reverse]
    congr 1
    simp
  · have := pathLength_nonneg (cities.getD (cities.length - 1) (0, 0) :: chrom.map (fun i => cities.getD i (0, 0)) ++
      [cities.getD (cities.length - 1) (0, 0)])
    unfold tourLength
    linarith

/-- A 3-4-5 triangle: the closed tour has the length 12. -/
example : tspInvoke [(0, 0), (3, 0), (0, 4)] [1, 0] = some (-12) := by
  rw [(C54_tsp_tour_length [(0, 0), (3, 0), (0, 4)] (by simp) [1, 0] (by decide)).1]
  have e5 : Real.sqrt ((0 - 3) ^ 2 + (4 - 0) ^ 2) = 5 := by
    rw [show ((0 : ℝ) - 3) ^ 2 + (4 - 0) ^ 2 = 5 ^ 2 by norm_num, Real.sqrt_sq (by norm_num)]
  have e3 : Real.sqrt ((3 - 0) ^ 2 + (0 - 0) ^ 2) = 3 := by
    rw [show ((3 : ℝ) - 0) ^ 2 + (0 - 0) ^ 2 = 3 ^ 2 by norm_num, Real.sqrt_sq (by norm_num)]
  have e4 : Real.sqrt ((0 - 0) ^ 2 + (0 - 4) ^ 2) = 4 := by
    rw [show ((0 : ℝ) - 0) ^ 2 + (0 - 4) ^ 2 = 4 ^ 2 by norm_num, Real.sqrt_sq (by norm_num)]
  simp only [tourLength, List.map, List.getD_cons_zero, List.getD_cons_succ, List.length_cons, List.length_nil, List.cons_append,
    List.nil_append, pathLength, dist2, Nat.add_sub_cancel, Nat.zero_add]
  rw [e5, e3, e4]
  norm_num

end Gapp.Props
