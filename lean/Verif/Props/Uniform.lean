import Mathlib.Tactic.Ring
import Verif.Proofs.Uniform
import Verif.Props.Sample
import Verif.Props.Mutation

/-!
# C76: random choices are uniform
-/

namespace Gapp.Props

open Gapp.Model Gapp.Spec Gapp.Proofs.Uniform

/-- The possible sequences of the random integers that `sampleUnique` draws. All of them are equally likely, because `randomInt` is uniform and
its calls are independent. -/
def SampleInputs (lb ub : Int) (count : Nat) (selectMany : Bool) : Set (List Int) :=
  {draws | draws.length = sampleDraws lb ub count selectMany ∧ DrawsFrom lb (firstLimit lb ub count selectMany) draws}

theorem floydList_perm_iff {lb ub : Int} {count : Nat} (hc : lb + count ≤ ub) (hr : ub - lb < 65536) {draws : List Int}
    (hd : draws ∈ SampleInputs lb ub count false) (target : List Int) :
    (∃ numbers, sampleUnique lb ub count false draws = some numbers ∧ numbers.Perm target) ↔ (floydList (ub - count) draws).Perm target := by
  have hsd : sampleDraws lb ub count false = count := by simp [sampleDraws]
  obtain ⟨hl, hd⟩ := hd
  rw [firstLimit, hsd] at hd
  rw [hsd] at hl
  obtain ⟨sel, he, _⟩ := floyd_eq (lb := lb) (limit := ub - count) (N := (ub - lb).toNat) (by omega) draws hd (by omega)
  have e : sampleUnique lb ub count false draws = some (floydList (ub - count) draws) := by
    have hnh : ¬ (ub - lb).toNat ≥ 65536 := by omega
    simp [sampleUnique, hnh, hl, he]
  rw [e]
  simp

/-- The numbers that are not in the list. -/
def others (lb ub : Int) (target : List Int) : List Int := (intRange lb (ub - lb).toNat).filter (fun x => decide (x ∉ target))

theorem others_props {lb ub : Int} {count : Nat} (hc : lb + count ≤ ub) {target : List Int} (ht : IsSample lb ub count target) :
    (others lb ub target).length = (ub - lb).toNat - count ∧ (others lb ub target).Nodup ∧
      ∀ x, x ∈ others lb ub target ↔ (lb ≤ x ∧ x < lb + (ub - lb).toNat) ∧ x ∉ target := by
  obtain ⟨htl, htn, htr⟩ := ht
  have hmem : ∀ x, x ∈ others lb ub target ↔ (lb ≤ x ∧ x < lb + (ub - lb).toNat) ∧ x ∉ target := by
    intro x
    rw [others, List.mem_filter, decide_eq_true_eq, mem_intRange]
  have hnd : (others lb ub target).Nodup := (nodup_intRange _ _).filter _
  refine ⟨?_, hnd, hmem⟩
  have hp : (target ++ others lb ub target).Perm (intRange lb (ub - lb).toNat) := by
    rw [List.perm_ext_iff_of_nodup _ (nodup_intRange _ _)]
    · intro x
      rw [List.mem_append, hmem, mem_intRange]
      constructor
      · rintro (h | h)
        · have := htr x h
          omega
        · exact h.1
      · intro h
        by_cases hx : x ∈ target
        · exact Or.inl hx
        · exact Or.inr ⟨h, hx⟩
    · rw [List.nodup_append]
      refine ⟨htn, hnd, ?_⟩
      intro a ha b hb e
      rw [hmem] at hb
      exact hb.2 (e ▸ ha)
  have := hp.length_eq
  rw [List.length_append, htl] at this
  have h2 : (intRange lb (ub - lb).toNat).length = (ub - lb).toNat := by simp [intRange]
  omega

theorem removed_perm_iff {lb ub : Int} {count : Nat} (hc : lb + count ≤ ub) (hr : ub - lb < 65536) {draws : List Int}
    (hd : draws ∈ SampleInputs lb ub count true) {target : List Int} (ht : IsSample lb ub count target) :
    (∃ numbers, sampleUnique lb ub count true draws = some numbers ∧ numbers.Perm target) ↔
      (floydList (ub - ((ub - lb).toNat - count : Nat)) draws).Perm (others lb ub target) := by
  have hsd : sampleDraws lb ub count true = (ub - lb).toNat - count := by
    simp only [sampleDraws]; rw [if_neg (by simp; omega)]
  obtain ⟨hl, hd⟩ := hd
  rw [firstLimit, hsd] at hd
  rw [hsd] at hl
  have hnh : ¬ (ub - lb).toNat ≥ 65536 := by omega
  have hlim : lb ≤ ub - ((ub - lb).toNat - count : Nat) := by omega
  obtain ⟨sel, he, hsl, hs⟩ := remove_eq (lb := lb) (N := (ub - lb).toNat) hlim draws hd (by omega)
  have hf := floydList_props hlim draws hd
  have hfl := floydList_length (ub - ((ub - lb).toNat - count : Nat)) draws
  obtain ⟨hm, hlen⟩ := collect_complement hsl hf.1 (fun x hx => by have := hf.2 x hx; omega) hs
  have hlen' : (collectSelected lb sel).length = count := by omega
  have e : sampleUnique lb ub count true draws = some (collectSelected lb sel) := by
    simp only [sampleUnique]
    rw [if_neg hnh]
    simp only [Bool.not_true, Bool.false_eq_true, if_false, hl, if_true, he, Option.bind_eq_bind, Option.bind_some, hlen', Nat.le_refl,
      Nat.sub_self, List.replicate_zero, List.append_nil, Option.pure_def]
  obtain ⟨ho1, ho2, ho3⟩ := others_props hc ht
  obtain ⟨htl, htn, htr⟩ := ht
  rw [e]
  simp only [Option.some.injEq, exists_eq_left']
  rw [List.perm_ext_iff_of_nodup (nodup_collectSelected _ _) htn, List.perm_ext_iff_of_nodup hf.1 ho2]
  constructor
  · intro h x
    rw [ho3, ← h x, hm]
    constructor
    · intro hx
      have := hf.2 x hx
      exact ⟨by omega, fun h => h.2 hx⟩
    · rintro ⟨h1, h2⟩
      by_contra h3
      exact h2 ⟨h1, h3⟩
  · intro h x
    rw [hm, h x, ho3]
    constructor
    · rintro ⟨h1, h2⟩
      by_contra h3
      exact h2 ⟨h1, h3⟩
    · intro hx
      have := htr x hx
      exact ⟨by omega, fun h => h.2 hx⟩

/-- **C76 (partial).** For ranges of less than 65536 values and both methods, `sampleUnique` returns every set of `count` integers of the range with
the same probability, one divided by the number of these sets.

What is missing: the ranges with 65536 values or more, where the numbers are not even distinct (`C35_huge_range_duplicates`). -/
theorem C76_sample_uniform_partial (lb ub : Int) (count : Nat) (hc : lb + count ≤ ub) (hr : ub - lb < 65536) (selectMany : Bool)
    (target : List Int) (ht : IsSample lb ub count target) :
    Set.ncard {draws ∈ SampleInputs lb ub count selectMany | ∃ numbers, sampleUnique lb ub count selectMany draws = some numbers ∧ numbers.Perm target} *
        (ub - lb).toNat.choose count = Set.ncard (SampleInputs lb ub count selectMany) ∧
      0 < Set.ncard (SampleInputs lb ub count selectMany) := by
  obtain ⟨N, hN⟩ : ∃ N, N = (ub - lb).toNat := ⟨_, rfl⟩
  have hcN : count ≤ N := by omega
  cases selectMany with
  | false =>
    have hsd : sampleDraws lb ub count false = count := by simp [sampleDraws]
    have e1 : {draws ∈ SampleInputs lb ub count false | ∃ numbers, sampleUnique lb ub count false draws = some numbers ∧ numbers.Perm target} =
        {d | (d.length = count ∧ DrawsFrom lb (ub - count) d) ∧ (floydList (ub - count) d).Perm target} := by
      ext d
      simp only [Set.mem_setOf_eq]
      constructor
      · rintro ⟨h1, h2⟩
        rw [floydList_perm_iff hc hr h1] at h2
        simp only [SampleInputs, firstLimit, hsd, Set.mem_setOf_eq] at h1
        exact ⟨h1, h2⟩
      · rintro ⟨h1, h2⟩
        have h1' : d ∈ SampleInputs lb ub count false := by
          simp only [SampleInputs, firstLimit, hsd, Set.mem_setOf_eq]
          exact h1
        exact ⟨h1', (floydList_perm_iff hc hr h1' target).mpr h2⟩
    have e2 : SampleInputs lb ub count false = {d | d.length = count ∧ DrawsFrom lb (ub - count) d} := by
      simp only [SampleInputs, firstLimit, hsd]
    rw [e1, e2, ncard_hits (by omega) count target ht.2.1 ht.1 (fun x hx => by have := ht.2.2 x hx; omega), ncard_allDraws (by omega),
      show (ub - count - lb).toNat = N - count by omega, ← hN]
    have h1 := Nat.factorial_mul_ascFactorial (N - count) count
    rw [Nat.sub_add_cancel hcN] at h1
    have h2 := Nat.choose_mul_factorial_mul_factorial hcN
    have hp : 0 < (N - count).factorial := Nat.factorial_pos _
    constructor
    · apply Nat.eq_of_mul_eq_mul_left hp
      rw [h1, ← h2]
      ring
    · exact Nat.ascFactorial_pos _ _
  | true =>
    have hsd : sampleDraws lb ub count true = N - count := by
      simp only [sampleDraws]; rw [if_neg (by simp; omega), hN]
    obtain ⟨ho1, ho2, ho3⟩ := others_props hc ht
    have e1 : {draws ∈ SampleInputs lb ub count true | ∃ numbers, sampleUnique lb ub count true draws = some numbers ∧ numbers.Perm target} =
        {d | (d.length = N - count ∧ DrawsFrom lb (ub - (N - count : Nat)) d) ∧ (floydList (ub - (N - count : Nat)) d).Perm (others lb ub target)} := by
      ext d
      simp only [Set.mem_setOf_eq]
      constructor
      · rintro ⟨h1, h2⟩
        rw [removed_perm_iff hc hr h1 ht, ← hN] at h2
        simp only [SampleInputs, firstLimit, hsd, Set.mem_setOf_eq] at h1
        exact ⟨h1, h2⟩
      · rintro ⟨h1, h2⟩
        have h1' : d ∈ SampleInputs lb ub count true := by
          simp only [SampleInputs, firstLimit, hsd, Set.mem_setOf_eq]
          exact h1
        exact ⟨h1', (removed_perm_iff hc hr h1' ht).mpr (by rw [← hN]; exact h2)⟩
    have e2 : SampleInputs lb ub count true = {d | d.length = N - count ∧ DrawsFrom lb (ub - (N - count : Nat)) d} := by
      simp only [SampleInputs, firstLimit, hsd]
    rw [e1, e2, ncard_hits (by omega) (N - count) _ ho2 (by rw [ho1, hN]) (fun x hx => by have := ((ho3 x).mp hx).1; omega),
      ncard_allDraws (by omega), show (ub - (N - count : Nat) - lb).toNat = count by omega, ← hN]
    have h1 := Nat.factorial_mul_ascFactorial count (N - count)
    rw [Nat.add_sub_cancel' hcN] at h1
    have h2 := Nat.choose_mul_factorial_mul_factorial hcN
    have hp : 0 < count.factorial := Nat.factorial_pos _
    constructor
    · apply Nat.eq_of_mul_eq_mul_left hp
      rw [h1, ← h2]
      ring
    · exact Nat.ascFactorial_pos _ _

/-- Three of the numbers -2, …, 7 without replacement: the set {-2, 0, 7} has the probability 1/120. -/
example : Set.ncard {draws ∈ SampleInputs (-2) 8 3 false | ∃ numbers, sampleUnique (-2) 8 3 false draws = some numbers ∧ numbers.Perm [-2, 0, 7]} * 120 =
    Set.ncard (SampleInputs (-2) 8 3 false) :=
  (C76_sample_uniform_partial (-2) 8 3 (by decide) (by decide) false [-2, 0, 7] (by refine ⟨rfl, by decide, by decide⟩)).1

/-! ## The mutations -/

/-- The number of the loci where two chromosomes differ. -/
def hammingDist {α : Type} [DecidableEq α] (l c : List α) : Nat := ((List.range l.length).filter (fun i => decide (l[i]? ≠ c[i]?))).length

/-- The loci where two chromosomes differ, as the integers that `sampleUnique` returns. -/
def diffLoci {α : Type} [DecidableEq α] (l c : List α) : List Int :=
  ((List.range l.length).filter (fun i => decide (l[i]? ≠ c[i]?))).map Int.ofNat

theorem mem_diffLoci {α : Type} [DecidableEq α] (l c : List α) (i : Nat) : (i : Int) ∈ diffLoci l c ↔ i < l.length ∧ l[i]? ≠ c[i]? := by
  unfold diffLoci
  rw [List.mem_map]
  constructor
  · rintro ⟨j, hj, e⟩
    have : j = i := by simpa using e
    subst this
    simpa using hj
  · intro h
    exact ⟨i, by simpa using h, rfl⟩

theorem diffLoci_sample {α : Type} [DecidableEq α] (l c : List α) : IsSample 0 l.length (hammingDist l c) (diffLoci l c) := by
  refine ⟨by simp [diffLoci, hammingDist], ?_, ?_⟩
  · exact (List.nodup_range.filter _).map (fun a b h => by simpa using h)
  · intro x hx
    obtain ⟨j, hj, rfl⟩ := List.mem_map.mp hx
    have := List.mem_range.mp (List.mem_filter.mp hj).1
    simp only [Int.ofNat_eq_natCast]
    omega

theorem sampleIndices_eq {n count : Nat} (hc : count ≤ n) (hn : n < 65536) {selectMany : Bool} {draws : List Int}
    (hd : draws ∈ SampleInputs 0 n count selectMany) :
    ∃ numbers, sampleUnique 0 n count selectMany draws = some numbers ∧ IsSample 0 n count numbers ∧
      sampleIndices n count selectMany draws = some (numbers.map Int.toNat) ∧ (numbers.map Int.toNat).Nodup := by
  obtain ⟨hl, hd⟩ := hd
  obtain ⟨numbers, h1, h2⟩ := C35_sample_unique_partial 0 n count (by omega) (by omega) selectMany draws hl hd
  refine ⟨numbers, h1, h2, by simp only [sampleIndices, hc, if_true, h1, Option.map_some], ?_⟩
  obtain ⟨_, h3, h4⟩ := h2
  apply List.Nodup.map_on _ h3
  intro x hx y hy hxy
  have := h4 x hx
  have := h4 y hy
  omega

theorem mem_toNat {n count : Nat} {numbers : List Int} (h : IsSample 0 n count numbers) (i : Nat) : i ∈ numbers.map Int.toNat ↔ (i : Int) ∈ numbers := by
  rw [List.mem_map]
  constructor
  · rintro ⟨x, hx, e⟩
    have := h.2.2 x hx
    have : (i : Int) = x := by omega
    rw [this]; exact hx
  · intro hx
    exact ⟨_, hx, by simp⟩

theorem flip_eq_iff (l : List Nat) (hl : ∀ g ∈ l, g ≤ 1) (count : Nat) (hc : count ≤ l.length) (hn : l.length < 65536) (selectMany : Bool)
    (draws : List Int) (hd : draws ∈ SampleInputs 0 l.length count selectMany)
    (c : List Nat) (hcl : c.length = l.length) (hcb : ∀ g ∈ c, g ≤ 1) :
    Model.flip count selectMany draws l = some c ↔ ∃ numbers, sampleUnique 0 l.length count selectMany draws = some numbers ∧ numbers.Perm (diffLoci l c) := by
  obtain ⟨numbers, h1, h2, h3, h4⟩ := sampleIndices_eq hc hn hd
  have hfst : ((numbers.map Int.toNat).map (fun i => (i, ()))).map Prod.fst = numbers.map Int.toNat := by rw [List.map_map]; exact List.map_id _
  obtain ⟨c', hc'⟩ := updateAt_total (f := fun _ (_ : Unit) g => some (g ^^^ 1)) ((numbers.map Int.toNat).map (fun i => (i, ()))) l
    (by
      intro p hp
      obtain ⟨i, hi, rfl⟩ := List.mem_map.mp hp
      have := h2.2.2 _ ((mem_toNat h2 i).mp hi)
      show i < _
      omega) (by intro _ _ _ _; rfl)
  have hpart := (updateAt_partial (fun _ _ => True) _ l c' hc' (by intros; trivial) (by intros; trivial)).1
  have hnod := updateAt_nodup _ l c' hc' (by rw [hfst]; exact h4)
  rw [hfst] at hpart
  have hflip : Model.flip count selectMany draws l = some c' := by
    simp only [Model.flip, h3, Option.bind_eq_bind, Option.bind_some, hc']
  have hat : ∀ i : Nat, (i : Int) ∈ numbers → ∃ g, l[i]? = some g ∧ c'[i]? = some (g ^^^ 1) := by
    intro i hi
    obtain ⟨g, g', hg, hf, hg'⟩ := hnod i () (by simpa using (mem_toNat h2 i).mpr hi)
    cases hf
    exact ⟨g, hg, hg'⟩
  have hout : ∀ i : Nat, (i : Int) ∉ numbers → c'[i]? = l[i]? := fun i hi => hpart.2 i (fun h => hi ((mem_toNat h2 i).mp h))
  have hx : ∀ g : Nat, g ≤ 1 → g ^^^ 1 ≠ g ∧ ∀ k ≤ 1, k ≠ g → g ^^^ 1 = k := by decide
  rw [hflip, h1]
  simp only [Option.some.injEq, exists_eq_left']
  rw [List.perm_ext_iff_of_nodup h2.2.1 (diffLoci_sample l c).2.1]
  constructor
  · rintro rfl x
    constructor
    · intro hx'
      have hr := h2.2.2 x hx'
      obtain ⟨i, rfl⟩ : ∃ i : Nat, x = i := ⟨x.toNat, by omega⟩
      obtain ⟨g, hg, hg'⟩ := hat i hx'
      rw [mem_diffLoci, hg, hg']
      refine ⟨by omega, fun e => (hx g (hl g (List.mem_of_getElem? hg))).1 (Option.some.inj e).symm⟩
    · intro hx'
      have hr := (diffLoci_sample l c').2.2 x hx'
      obtain ⟨i, rfl⟩ : ∃ i : Nat, x = i := ⟨x.toNat, by omega⟩
      by_contra hno
      exact ((mem_diffLoci l c' i).mp hx').2 (hout i hno).symm
  · intro h
    apply List.ext_getElem?
    intro i
    by_cases hi : (i : Int) ∈ numbers
    · obtain ⟨g, hg, hg'⟩ := hat i hi
      have hdf := (mem_diffLoci l c i).mp ((h _).mp hi)
      have hci : i < c.length := by omega
      rw [hg', List.getElem?_eq_getElem hci]
      rw [hg, List.getElem?_eq_getElem hci] at hdf
      congr 1
      exact (hx g (hl g (List.mem_of_getElem? hg))).2 _ (hcb _ (List.getElem_mem _)) (fun e => hdf.2 (by rw [e]))
    · rw [hout i hi]
      by_contra hne
      by_cases hil : i < l.length
      · exact hi ((h _).mpr ((mem_diffLoci l c i).mpr ⟨hil, hne⟩))
      · rw [List.getElem?_eq_none (by omega), List.getElem?_eq_none (by omega)] at hne
        exact hne rfl

/-- **C76 (partial).** The `Flip` mutation that has drawn the number of genes to change gives every binary chromosome at that distance
from the original with the same probability, when the chromosome has less than 65536 genes. -/
theorem C76_flip_partial (l : List Nat) (hl : ∀ g ∈ l, g ≤ 1) (hn : l.length < 65536) (selectMany : Bool)
    (c : List Nat) (hcl : c.length = l.length) (hcb : ∀ g ∈ c, g ≤ 1) :
    Set.ncard {draws ∈ SampleInputs 0 l.length (hammingDist l c) selectMany | Model.flip (hammingDist l c) selectMany draws l = some c} *
        l.length.choose (hammingDist l c) = Set.ncard (SampleInputs 0 l.length (hammingDist l c) selectMany) ∧
      0 < Set.ncard (SampleInputs 0 l.length (hammingDist l c) selectMany) := by
  have hle : hammingDist l c ≤ l.length := by
    unfold hammingDist
    refine le_trans (List.length_filter_le _ _) (by simp)
  have h := C76_sample_uniform_partial 0 l.length (hammingDist l c) (by omega) (by omega) selectMany _ (diffLoci_sample l c)
  simp only [Int.sub_zero, Int.toNat_natCast] at h
  rw [← h.1]
  refine ⟨?_, by rw [h.1]; exact h.2⟩
  congr 2
  ext d
  simp only [Set.mem_setOf_eq]
  constructor
  · rintro ⟨h1, h2⟩
    exact ⟨h1, (flip_eq_iff l hl _ hle hn selectMany d h1 c hcl hcb).mp h2⟩
  · rintro ⟨h1, h2⟩
    exact ⟨h1, (flip_eq_iff l hl _ hle hn selectMany d h1 c hcl hcb).mpr h2⟩

/-- Two of the four genes of 0110 are flipped: 0011 has the probability 1/6. -/
example : Set.ncard {draws ∈ SampleInputs 0 4 2 false | Model.flip 2 false draws [0, 1, 1, 0] = some [0, 0, 1, 1]} * 6 = Set.ncard (SampleInputs 0 4 2 false) :=
  (C76_flip_partial [0, 1, 1, 0] (by decide) (by decide) false [0, 0, 1, 1] rfl (by decide)).1

theorem swap2_eq_iff {α : Type} (l : List α) (hnd : l.Nodup) (h2 : 2 ≤ l.length) (hn : l.length < 65536) (selectMany : Bool)
    (draws : List Int) (hd : draws ∈ SampleInputs 0 l.length 2 selectMany) (i j : Nat) (hi : i < l.length) (hj : j < l.length) (hij : i ≠ j)
    (c : List α) (hc : SwappedAt l i j c) :
    swap2 true selectMany draws l = some c ↔ ∃ numbers, sampleUnique 0 l.length 2 selectMany draws = some numbers ∧ numbers.Perm [(i : Int), (j : Int)] := by
  obtain ⟨numbers, h1, hs, h3, h4⟩ := sampleIndices_eq h2 hn hd
  obtain ⟨hlen, hsn, hsr⟩ := hs
  obtain ⟨a, b, rfl⟩ : ∃ a b, numbers = [a, b] := List.length_eq_two.mp hlen
  have ha := hsr a (by simp)
  have hb := hsr b (by simp)
  obtain ⟨a, rfl⟩ : ∃ k : Nat, a = k := ⟨a.toNat, by omega⟩
  obtain ⟨b, rfl⟩ : ∃ k : Nat, b = k := ⟨b.toNat, by omega⟩
  have hab : a ≠ b := by simpa using hsn
  obtain ⟨c', hc', hsw⟩ := swap?_ok (l := l) (i := a) (j := b) (by omega) (by omega)
  have hsw2 : swap2 true selectMany draws l = some c' := by
    unfold swap2
    rw [if_neg (by omega)]
    simp only [if_true, h3, Option.bind_eq_bind, Option.bind_some, List.map_cons, List.map_nil, Int.toNat_natCast, List.getElem?_cons_zero,
      List.getElem?_cons_succ, hc']
  rw [hsw2, h1]
  simp only [Option.some.injEq, exists_eq_left']
  have inj : ∀ p q, p < l.length → l[p]? = l[q]? → p = q := by
    intro p q hp he
    exact (List.getElem?_inj hp hnd).mp he
  have hperm : [(a : Int), (b : Int)].Perm [(i : Int), (j : Int)] ↔ (a = i ∧ b = j) ∨ (a = j ∧ b = i) := by
    rw [List.perm_ext_iff_of_nodup (by simpa using hab) (by simpa using hij)]
    simp only [List.mem_cons, List.not_mem_nil, or_false]
    constructor
    · intro h
      have := (h a).mp (Or.inl rfl)
      have := (h b).mp (Or.inr rfl)
      omega
    · rintro (⟨rfl, rfl⟩ | ⟨rfl, rfl⟩) x
      · rfl
      · exact or_comm
  rw [hperm]
  obtain ⟨hcl, hci, hcj, hco⟩ := hc
  obtain ⟨hcl', hca, hcb, hco'⟩ := hsw
  constructor
  · rintro rfl
    have ea : a = i ∨ a = j := by
      by_contra hno
      have := hco a (fun e => hno (Or.inl e)) (fun e => hno (Or.inr e))
      rw [this] at hca
      exact hab (inj a b (by omega) hca)
    have eb : b = i ∨ b = j := by
      by_contra hno
      have := hco b (fun e => hno (Or.inl e)) (fun e => hno (Or.inr e))
      rw [this] at hcb
      exact hab (inj b a (by omega) hcb).symm
    omega
  · intro h
    apply List.ext_getElem?
    intro k
    rcases h with ⟨rfl, rfl⟩ | ⟨rfl, rfl⟩
    · by_cases h1 : k = a
      · rw [h1, hca, hci]
      · by_cases h2 : k = b
        · rw [h2, hcb, hcj]
        · rw [hco k h1 h2, hco' k h1 h2]
    · by_cases h1 : k = a
      · rw [h1, hca, hcj]
      · by_cases h2 : k = b
        · rw [h2, hcb, hci]
        · rw [hco k h2 h1, hco' k h1 h2]

/-- **C76 (partial).** The `Swap2` mutation exchanges every pair of genes with the same probability, when the chromosome has less than
65536 genes. -/
theorem C76_swap2_partial {α : Type} (l : List α) (hnd : l.Nodup) (hn : l.length < 65536) (selectMany : Bool)
    (i j : Nat) (hi : i < l.length) (hj : j < l.length) (hij : i ≠ j) (c : List α) (hc : SwappedAt l i j c) :
    Set.ncard {draws ∈ SampleInputs 0 l.length 2 selectMany | swap2 true selectMany draws l = some c} *
        l.length.choose 2 = Set.ncard (SampleInputs 0 l.length 2 selectMany) ∧
      0 < Set.ncard (SampleInputs 0 l.length 2 selectMany) := by
  have h2 : 2 ≤ l.length := by omega
  have ht : IsSample 0 l.length 2 [(i : Int), (j : Int)] := by
    refine ⟨rfl, by simpa using hij, ?_⟩
    intro x hx
    simp only [List.mem_cons, List.not_mem_nil, or_false] at hx
    omega
  have h := C76_sample_uniform_partial 0 l.length 2 (by omega) (by omega) selectMany _ ht
  simp only [Int.sub_zero, Int.toNat_natCast] at h
  rw [← h.1]
  refine ⟨?_, by rw [h.1]; exact h.2⟩
  congr 2
  ext d
  simp only [Set.mem_setOf_eq]
  constructor
  · rintro ⟨h1, hh⟩
    exact ⟨h1, (swap2_eq_iff l hnd h2 hn selectMany d h1 i j hi hj hij c hc).mp hh⟩
  · rintro ⟨h1, hh⟩
    exact ⟨h1, (swap2_eq_iff l hnd h2 hn selectMany d h1 i j hi hj hij c hc).mpr hh⟩

/-- The first and the last of four genes are exchanged with the probability 1/6. -/
example : Set.ncard {draws ∈ SampleInputs 0 4 2 true | swap2 true true draws [10, 11, 12, 13] = some [13, 11, 12, 10]} * 6 =
    Set.ncard (SampleInputs 0 4 2 true) :=
  (C76_swap2_partial [10, 11, 12, 13] (by decide) (by decide) true 0 3 (by decide) (by decide) (by decide) [13, 11, 12, 10]
    ⟨rfl, rfl, rfl, by
      intro k h0 h3
      rcases k with _ | _ | _ | _ | k
      · exact absurd rfl h0
      · rfl
      · rfl
      · exact absurd rfl h3
      · rfl⟩).1

theorem collectSelected_sorted (lb : Int) (sel : List Bool) : (collectSelected lb sel).Pairwise (· < ·) := by
  unfold collectSelected
  rw [List.pairwise_map]
  have h : ∀ (l : List Bool) (k : Nat), ((l.zipIdx k).filter (fun p => p.1)).Pairwise (fun p q => lb + (p.2 : Int) < lb + q.2) := by
    intro l
    induction l with
    | nil => intro k; simp
    | cons b l ih =>
      intro k
      rw [List.zipIdx_cons]
      rw [List.filter_cons]
      split
      · rw [List.pairwise_cons]
        refine ⟨?_, ih _⟩
        intro q hq
        have := List.le_snd_of_mem_zipIdx (List.mem_filter.mp hq).1
        show lb + (k : Int) < _
        omega
      · exact ih _
  exact h sel 0

theorem removed_collect {lb ub : Int} {count : Nat} (hc : lb + count ≤ ub) (hr : ub - lb < 65536) {draws : List Int}
    (hd : draws ∈ SampleInputs lb ub count true) : ∃ sel, sampleUnique lb ub count true draws = some (collectSelected lb sel) := by
  have hsd : sampleDraws lb ub count true = (ub - lb).toNat - count := by
    simp only [sampleDraws]; rw [if_neg (by simp; omega)]
  obtain ⟨hl, hd⟩ := hd
  rw [firstLimit, hsd] at hd
  rw [hsd] at hl
  have hnh : ¬ (ub - lb).toNat ≥ 65536 := by omega
  have hlim : lb ≤ ub - ((ub - lb).toNat - count : Nat) := by omega
  obtain ⟨sel, he, hsl, hs⟩ := remove_eq (lb := lb) (N := (ub - lb).toNat) hlim draws hd (by omega)
  have hf := floydList_props hlim draws hd
  have hfl := floydList_length (ub - ((ub - lb).toNat - count : Nat)) draws
  obtain ⟨hm, hlen⟩ := collect_complement hsl hf.1 (fun x hx => by have := hf.2 x hx; omega) hs
  have hlen' : (collectSelected lb sel).length = count := by omega
  refine ⟨sel, ?_⟩
  simp only [sampleUnique]
  rw [if_neg hnh]
  simp only [Bool.not_true, Bool.false_eq_true, if_false, hl, if_true, he, Option.bind_eq_bind, Option.bind_some, hlen', Nat.le_refl,
    Nat.sub_self, List.replicate_zero, List.append_nil, Option.pure_def]

theorem floyd_two {n : Nat} (h2 : 2 ≤ n) (hn : n < 65536) {x y : Int} (hd : [x, y] ∈ SampleInputs 0 n 2 false) :
    sampleUnique 0 n 2 false [x, y] = some [x, if y = x then (n : Int) - 1 else y] := by
  have hnh : ¬ ((n : Int) - 0).toNat ≥ 65536 := by omega
  have hsd : sampleDraws 0 n 2 false = 2 := by simp [sampleDraws]
  obtain ⟨hl, hd⟩ := hd
  rw [firstLimit, hsd] at hd
  obtain ⟨sel, he, _⟩ := floyd_eq (lb := 0) (limit := (n : Int) - (2 : Nat)) (N := ((n : Int) - 0).toNat) (by omega) [x, y] hd (by simp)
  have e : sampleUnique 0 n 2 false [x, y] = some (floydList ((n : Int) - (2 : Nat)) [x, y]) := by
    simp only [sampleUnique]
    rw [if_neg hnh]
    simp only [Bool.not_false, if_true, List.length_cons, List.length_nil, Nat.reduceAdd, he, Option.bind_eq_bind, Option.bind_some, Option.pure_def]
  rw [e]
  simp only [floydList, List.foldl_cons, List.foldl_nil, List.nil_append, List.not_mem_nil, if_false, List.mem_singleton, List.length_singleton,
    List.singleton_append]
  congr 3
  split <;> omega

theorem first_lt_last {n : Nat} (h2 : 2 ≤ n) (hn : n < 65536) {selectMany : Bool} {draws : List Int} (hd : draws ∈ SampleInputs 0 n 2 selectMany)
    {a b : Int} (h : sampleUnique 0 n 2 selectMany draws = some [a, b]) : a + 1 < n := by
  cases selectMany with
  | false =>
    have hsd : sampleDraws 0 n 2 false = 2 := by simp [sampleDraws]
    have hl := hd.1
    rw [hsd] at hl
    obtain ⟨x, y, rfl⟩ := List.length_eq_two.mp hl
    rw [floyd_two h2 hn hd] at h
    have hd2 := hd.2
    rw [firstLimit, hsd] at hd2
    have := hd2 0 x rfl
    simp only [Option.some.injEq, List.cons.injEq] at h
    omega
  | true =>
    obtain ⟨numbers, h1, h3⟩ := sampleIndices_eq h2 hn hd
    rw [h] at h1
    cases h1
    have hb := h3.1.2.2 b (by simp)
    obtain ⟨sel, he⟩ := removed_collect (by omega) (by omega) hd
    rw [h] at he
    have hs := collectSelected_sorted 0 sel
    rw [← Option.some.inj he] at hs
    have : a < b := by simpa using hs
    omega

/-- **C76 (violated for `Shift`).** `Shift` with ranges of one gene moves a gene from the first of two different random places to the second one. But the
two numbers that `sampleUnique` returns are not in a random order: in chromosomes with less than 65536 genes, the last gene either
stays where it is or is moved by one place, with all of the random numbers, while the first gene is moved to every one of the places by some of them. -/
theorem C76_shift_violated {α : Type} (l : List α) (h2 : 2 ≤ l.length) (hn : l.length < 65536) :
    (∀ selectMany draws c, draws ∈ SampleInputs 0 l.length 2 selectMany → shift true 1 selectMany draws l = some c →
      c[l.length - 1]? = l[l.length - 1]? ∨ c[l.length - 2]? = l[l.length - 1]?) ∧
    (∀ dest, 0 < dest → dest < l.length → ∃ draws c, draws ∈ SampleInputs 0 l.length 2 false ∧ shift true 1 false draws l = some c ∧
      c[dest]? = l[0]?) := by
  constructor
  · intro selectMany draws c hd hc
    obtain ⟨numbers, h1, hs, h3, h4⟩ := sampleIndices_eq h2 hn hd
    obtain ⟨hlen, hsn, hsr⟩ := hs
    obtain ⟨a, b, rfl⟩ : ∃ a b, numbers = [a, b] := List.length_eq_two.mp hlen
    have ha := hsr a (by simp)
    have hb := hsr b (by simp)
    have hlt := first_lt_last h2 hn hd h1
    obtain ⟨a, rfl⟩ : ∃ k : Nat, a = k := ⟨a.toNat, by omega⟩
    obtain ⟨b, rfl⟩ : ∃ k : Nat, b = k := ⟨b.toNat, by omega⟩
    have hab : a ≠ b := by simpa using hsn
    unfold shift at hc
    rw [if_neg (by omega)] at hc
    simp only [if_true] at hc
    rw [if_neg (by omega), show l.length - 1 + 1 = l.length by omega] at hc
    simp only [h3, Option.bind_eq_bind, Option.bind_some, List.map_cons, List.map_nil, Int.toNat_natCast, List.getElem?_cons_zero,
      List.getElem?_cons_succ] at hc
    split at hc
    · left
      unfold rotateRange at hc
      rw [if_pos (by omega)] at hc
      cases hc
      rw [List.getElem?_append_right (by simp; omega), List.getElem?_drop]
      congr 1
      simp
      omega
    · unfold rotateRange at hc
      rw [if_pos (by omega)] at hc
      cases hc
      by_cases hbl : b + 1 = l.length
      · right
        rw [hbl, List.drop_length, List.append_nil, List.take_length, List.getElem?_append_left (by simp; omega),
          List.getElem?_append_right (by simp; omega), List.getElem?_drop]
        congr 1
        simp
        omega
      · left
        rw [List.getElem?_append_right (by simp; omega), List.getElem?_drop]
        congr 1
        simp
        omega
  · intro dest h0 hdl
    have hd : [0, (dest : Int)] ∈ SampleInputs 0 l.length 2 false := by
      have hsd : sampleDraws 0 l.length 2 false = 2 := by simp [sampleDraws]
      refine ⟨by rw [hsd]; rfl, ?_⟩
      rw [firstLimit, hsd]
      intro i m hm
      rcases i with _ | _ | i
      · simp only [List.getElem?_cons_zero, Option.some.injEq] at hm
        subst hm
        omega
      · simp only [List.getElem?_cons_succ, List.getElem?_cons_zero, Option.some.injEq] at hm
        subst hm
        omega
      · simp at hm
    have hf := floyd_two h2 hn hd
    rw [if_neg (by omega)] at hf
    refine ⟨_, l.take 0 ++ (l.take (dest + 1)).drop 1 ++ (l.take 1).drop 0 ++ l.drop (dest + 1), hd, ?_, ?_⟩
    · unfold shift
      rw [if_neg (by omega)]
      simp only [if_true]
      rw [if_neg (by omega), show l.length - 1 + 1 = l.length by omega]
      simp only [sampleIndices, h2, if_true, hf, Option.map_some, Option.bind_eq_bind, Option.bind_some, List.map_cons, List.map_nil,
        Int.toNat_natCast, List.getElem?_cons_zero, List.getElem?_cons_succ, Int.toNat_zero]
      rw [if_neg (by omega)]
      unfold rotateRange
      rw [if_pos (by omega)]
    · rw [List.getElem?_append_left (by simp; omega), List.getElem?_append_right (by simp), List.drop_zero, List.getElem?_take_of_lt (by simp; omega)]
      congr 1
      simp
      omega

/-- The shift of a chromosome with five genes: the first gene can be moved to the last place, the last gene cannot be moved to the first one. -/
example : (∃ draws, draws ∈ SampleInputs 0 5 2 false ∧ (shift true 1 false draws [10, 11, 12, 13, 14]).bind (fun c => c[4]?) = some 10) ∧
    ∀ selectMany draws, draws ∈ SampleInputs 0 5 2 selectMany → shift true 1 selectMany draws [10, 11, 12, 13, 14] ≠ some [14, 10, 11, 12, 13] := by
  have h := C76_shift_violated [10, 11, 12, 13, 14] (by decide) (by decide)
  constructor
  · obtain ⟨draws, c, h1, h2, h3⟩ := h.2 4 (by decide) (by decide)
    exact ⟨draws, h1, by rw [h2]; exact h3⟩
  · intro sm draws hd hc
    have := h.1 sm draws _ hd hc
    revert this
    decide

end Gapp.Props
