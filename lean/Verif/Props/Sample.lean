import Verif.Proofs.Sample
/-!
# C35: sampling without replacement
-/

namespace Gapp.Props
open Gapp.Model Gapp.Spec

/-- The first limit of the draws of `sampleUnique`. -/
def firstLimit (lb ub : Int) (count : Nat) (selectMany : Bool) : Int := ub - sampleDraws lb ub count selectMany

/-- **C35 (partial).** For ranges of less than 65536 values, all bounds (also negative ones), every admissible count, both
methods and all draws, `sampleUnique` returns `count` distinct integers of `[lb, ub)`.

What is missing: the ranges with 65536 values or more, for which it does not hold, see `C35_huge_range_duplicates`. -/
theorem C35_sample_unique_partial (lb ub : Int) (count : Nat) (hc : lb + count ≤ ub) (hr : ub - lb < 65536) (selectMany : Bool)
    (draws : List Int) (hl : draws.length = sampleDraws lb ub count selectMany)
    (hd : DrawsFrom lb (firstLimit lb ub count selectMany) draws) :
    ∃ numbers, sampleUnique lb ub count selectMany draws = some numbers ∧ IsSample lb ub count numbers := by
  have hnh : ¬ (ub - lb).toNat ≥ 65536 := by omega
  cases selectMany with
  | false =>
    have hsd : sampleDraws lb ub count false = count := by simp [sampleDraws]
    rw [firstLimit, hsd] at hd
    rw [hsd] at hl
    obtain ⟨sel, acc, he, _, hal, hnd, hb, _⟩ := floyd_inv (lb := lb) (limit := ub - count) (N := (ub - lb).toNat) (by omega) draws hd
      (by omega)
    refine ⟨acc, ?_, by omega, hnd, ?_⟩
    · simp [sampleUnique, hnh, hl, he]
    · intro x hx; have := hb x hx; omega
  | true =>
    have hsd : sampleDraws lb ub count true = (ub - lb).toNat - count := by
      simp only [sampleDraws]; rw [if_neg (by simp; omega)]
    rw [firstLimit, hsd] at hd
    rw [hsd] at hl
    obtain ⟨sel, rem, he, hsl, hrl, hnd, hb, hs⟩ := remove_inv (lb := lb) (limit := ub - ((ub - lb).toNat - count : Nat))
      (N := (ub - lb).toNat) (by omega) draws hd (by omega)
    obtain ⟨hm, hlen⟩ := collect_complement hsl hnd (fun x hx => by have := hb x hx; omega) hs
    have hlen' : (collectSelected lb sel).length = count := by omega
    refine ⟨collectSelected lb sel, ?_, hlen', nodup_collectSelected _ _, ?_⟩
    · simp only [sampleUnique]
      rw [if_neg hnh]
      simp only [Bool.not_true, Bool.false_eq_true, if_false, hl, if_true, he, Option.bind_eq_bind, Option.bind_some, hlen', Nat.le_refl,
        Nat.sub_self, List.replicate_zero, List.append_nil, Option.pure_def]
    · intro x hx
      rw [hm] at hx; omega

/-- **C35 (every subset can occur).** In the same cases, every set of `count` distinct integers of the range is the result for
some draws. -/
theorem C35_every_subset_occurs_partial (lb ub : Int) (count : Nat) (hc : lb + count ≤ ub) (hr : ub - lb < 65536) (selectMany : Bool)
    (target : List Int) (ht : IsSample lb ub count target) :
    ∃ draws numbers, draws.length = sampleDraws lb ub count selectMany ∧
      DrawsFrom lb (firstLimit lb ub count selectMany) draws ∧
      sampleUnique lb ub count selectMany draws = some numbers ∧ numbers.Perm target := by
  obtain ⟨htl, htn, htr⟩ := ht
  have hnh : ¬ (ub - lb).toNat ≥ 65536 := by omega
  cases selectMany with
  | false =>
    have hsd : sampleDraws lb ub count false = count := by simp [sampleDraws]
    obtain ⟨draws, sel, acc, hdl, hdf, he, hp⟩ := floyd_onto (lb := lb) (limit := ub - count) (N := (ub - lb).toNat) (by omega) count
      target htl htn (fun x hx => by have := htr x hx; omega) (by omega)
    refine ⟨draws, acc, by rw [hsd]; exact hdl, by rw [firstLimit, hsd]; exact hdf, ?_, hp⟩
    simp [sampleUnique, hnh, hdl, he]
  | true =>
    have hsd : sampleDraws lb ub count true = (ub - lb).toNat - count := by
      simp only [sampleDraws]; rw [if_neg (by simp; omega)]
    -- remove the numbers that are not in the target
    have hcomp : ((intRange lb (ub - lb).toNat).filter (fun x => decide (x ∉ target))).length = (ub - lb).toNat - count := by
      have hp : (target ++ (intRange lb (ub - lb).toNat).filter (fun x => decide (x ∉ target))).Perm (intRange lb (ub - lb).toNat) := by
        rw [List.perm_ext_iff_of_nodup _ (nodup_intRange _ _)]
        · intro x
          rw [List.mem_append, List.mem_filter, decide_eq_true_eq, mem_intRange]
          constructor
          · rintro (h | h)
            · have := htr x h; omega
            · exact h.1
          · intro h
            by_cases hx : x ∈ target
            · exact Or.inl hx
            · exact Or.inr ⟨h, hx⟩
        · rw [List.nodup_append]
          refine ⟨htn, (nodup_intRange _ _).filter _, ?_⟩
          intro a ha b hb e
          rw [List.mem_filter, decide_eq_true_eq] at hb
          exact hb.2 (e ▸ ha)
      have := hp.length_eq
      rw [List.length_append, htl] at this
      have h2 : (intRange lb (ub - lb).toNat).length = (ub - lb).toNat := by simp [intRange]
      omega
    have hmem : ∀ x, x ∈ (intRange lb (ub - lb).toNat).filter (fun x => decide (x ∉ target)) ↔
        (lb ≤ x ∧ x < lb + (ub - lb).toNat) ∧ x ∉ target := by
      intro x; rw [List.mem_filter, decide_eq_true_eq, mem_intRange]
    obtain ⟨draws, sel, hdl, hdf, he, hsl, hs⟩ := remove_onto (lb := lb) (limit := ub - ((ub - lb).toNat - count : Nat))
      (N := (ub - lb).toNat) (by omega) _ _ hcomp ((nodup_intRange _ _).filter _)
      (fun x hx => by have := ((hmem x).1 hx).1; omega) (by omega)
    obtain ⟨hm, hlen⟩ := collect_complement hsl ((nodup_intRange _ _).filter _)
      (fun x hx => by have := ((hmem x).1 hx).1; omega) hs
    have hlen' : (collectSelected lb sel).length = count := by omega
    refine ⟨draws, collectSelected lb sel, by rw [hsd]; exact hdl, by rw [firstLimit, hsd]; exact hdf, ?_, ?_⟩
    · simp only [sampleUnique]
      rw [if_neg hnh]
      simp only [Bool.not_true, Bool.false_eq_true, if_false, hdl, if_true, he, Option.bind_eq_bind, Option.bind_some, hlen', Nat.le_refl,
        Nat.sub_self, List.replicate_zero, List.append_nil, Option.pure_def]
    · rw [List.perm_ext_iff_of_nodup (nodup_collectSelected _ _) htn]
      intro x
      rw [hm, hmem]
      constructor
      · rintro ⟨h1, h2⟩
        by_contra h3
        exact h2 ⟨h1, h3⟩
      · intro hx
        refine ⟨by have := htr x hx; omega, fun h => h.2 hx⟩

/-- **C35 (negative part).** For a range of 65536 values there are draws for which the same number is returned twice. -/
theorem C35_huge_range_duplicates :
    ∃ (lb ub : Int) (count : Nat) (draws numbers : List Int), lb + count ≤ ub ∧
      draws.length = sampleDraws lb ub count false ∧ DrawsFrom lb (firstLimit lb ub count false) draws ∧
      sampleUnique lb ub count false draws = some numbers ∧ ¬ numbers.Nodup := by
  refine ⟨0, 65536, 3, [5, 5, 65534], [5, 65534, 65534], by decide, by decide, ?_, by decide, by decide⟩
  intro i n h
  have : firstLimit 0 65536 3 false = 65533 := by decide
  rw [this]
  match i, h with
  | 0, h => simp at h; omega
  | 1, h => simp at h; omega
  | 2, h => simp at h; omega

/-- **C35 (huge ranges, partial).** In a range of 65536 values or more the result still has `count` numbers, all of them in
the range. -/
theorem C35_huge_range_in_bounds_partial (lb ub : Int) (count : Nat) (hc : lb + count ≤ ub) (hr : 65536 ≤ ub - lb) (selectMany : Bool)
    (draws : List Int) (hl : draws.length = count) (hd : DrawsFrom lb (ub - count) draws) :
    ∃ numbers, sampleUnique lb ub count selectMany draws = some numbers ∧ numbers.length = count ∧
      ∀ x ∈ numbers, lb ≤ x ∧ x < ub := by
  have key : ∀ (draws : List Int), DrawsFrom lb (ub - count) draws → draws.length ≤ count →
      (draws.foldl setStep (ub - count, [], [])).1 = ub - count + draws.length ∧
      (draws.foldl setStep (ub - count, [], [])).2.2.length = draws.length ∧
      ∀ x ∈ (draws.foldl setStep (ub - count, [], [])).2.2, lb ≤ x ∧ x < ub - count + draws.length := by
    intro draws
    induction draws using Gapp.ListAux.snoc_induction with
    | nil => intro _ _; simp
    | append_singleton draws n ih =>
      intro hd hle
      obtain ⟨hd', h1, h2⟩ := DrawsFrom.init hd
      rw [List.length_append, List.length_singleton] at hle
      obtain ⟨g1, g2, g3⟩ := ih hd' (by omega)
      rw [List.foldl_append, List.foldl_cons, List.foldl_nil]
      generalize draws.foldl setStep (ub - count, [], []) = s at g1 g2 g3
      obtain ⟨l, sel, acc⟩ := s
      simp only at g1 g2 g3
      simp only [setStep, List.length_append, List.length_singleton, g2]
      refine ⟨by push_cast; omega, by trivial, ?_⟩
      intro x hx
      rw [List.mem_append, List.mem_singleton] at hx
      push_cast
      rcases hx with hx | hx
      · have := g3 x hx; omega
      · subst hx; split <;> omega
  obtain ⟨_, h2, h3⟩ := key draws hd (by omega)
  refine ⟨(draws.foldl setStep (ub - count, [], [])).2.2, ?_, by omega, ?_⟩
  · simp only [sampleUnique]
    rw [if_pos (by omega), sampleUniqueSet, if_pos hl]
  · intro x hx; have := h3 x hx; omega

example : sampleUnique (-2) 5 3 false [0, 0, -2] = some [0, 3, -2] := by decide
example : sampleUnique 0 6 4 true [1, 1] = some [0, 2, 3, 4] := by decide
example : DrawsFrom (-2) (firstLimit (-2) 5 3 false) [0, 0, -2] ∧ DrawsFrom 0 (firstLimit 0 6 4 true) [1, 1] := by
  constructor
  · intro i n h
    have : firstLimit (-2) 5 3 false = 2 := by decide
    rw [this]
    match i, h with
    | 0, h => simp at h; omega
    | 1, h => simp at h; omega
    | 2, h => simp at h; omega
  · intro i n h
    have : firstLimit 0 6 4 true = 4 := by decide
    rw [this]
    match i, h with
    | 0, h => simp at h; omega
    | 1, h => simp at h; omega

end Gapp.Props
