import Verif.Proofs.Mutation
import Mathlib.Tactic.NormNum
import Mathlib.Tactic.Ring
import Mathlib.Tactic.Linarith
/-!
# C19, C20: the mutation methods

`mutates` is the outcome of the comparison of a random number with the mutation rate. `scaled` is `size_t(range_max * length)`, a number that is at most the length
because `range_max` is in `[0, 1]`.
-/

namespace Gapp.Props
open Gapp.Model Gapp.Spec
variable {α : Type}

/-! ## Permutations -/

/-- C19: inversion returns a permutation of the chromosome; when it mutates it is the chromosome with the selected range reversed. -/
theorem C19_inversion (l : List α) (mutates : Bool) (scaled rangeLen first : Nat) (hs : scaled ≤ l.length)
    (hlen : 2 ≤ rangeLen ∧ rangeLen ≤ maxRangeLen scaled 2) (hfirst : first ≤ l.length - rangeLen) :
    ∃ c, inversion mutates rangeLen first l = some c ∧ c.Perm l ∧
      (mutates = true → 2 ≤ l.length → RangeReversed l first rangeLen c) ∧ (mutates = false → c = l) := by
  unfold inversion
  split
  · next h => exact ⟨l, rfl, List.Perm.refl _, fun _ h2 => by omega, fun _ => rfl⟩
  · next h =>
    cases mutates with
    | false => exact ⟨l, rfl, List.Perm.refl _, fun h => (by cases h), fun _ => rfl⟩
    | true =>
      simp only [maxRangeLen] at hlen
      obtain ⟨c, h1, h2, h3⟩ := reverseRange_ok (l := l) (first := first) (last := first + rangeLen) (by omega) (by omega)
      rw [Nat.add_sub_cancel_left] at h3
      exact ⟨c, by simpa using h1, h2, fun _ _ => h3, fun h => (by cases h)⟩

example : inversion true 3 1 [10, 11, 12, 13, 14] = some [10, 13, 12, 11, 14] := by decide
example : ∃ scaled, scaled ≤ [10, 11, 12, 13, 14].length ∧ (2 ≤ 3 ∧ 3 ≤ maxRangeLen scaled 2) ∧ 1 ≤ [10, 11, 12, 13, 14].length - 3 :=
  ⟨3, by decide⟩

/-- C19: swap2 returns a permutation of the chromosome, with the genes at two loci exchanged; the loci are different
for chromosomes of less than 65536 genes. -/
theorem C19_swap2 (l : List α) (mutates selectMany : Bool) (draws : List Int)
    (hd : 2 ≤ l.length → SampleDraws l.length 2 selectMany draws) :
    ∃ c, swap2 mutates selectMany draws l = some c ∧ c.Perm l ∧ (mutates = false → c = l) ∧
      (mutates = true → 2 ≤ l.length → ∃ i j, i < l.length ∧ j < l.length ∧ (l.length < 65536 → i ≠ j) ∧ SwappedAt l i j c) := by
  unfold swap2
  by_cases h : l.length < 2
  · rw [if_pos h]
    exact ⟨l, rfl, List.Perm.refl _, fun _ => rfl, fun _ h2 => by omega⟩
  · rw [if_neg h]
    cases mutates with
    | false => exact ⟨l, rfl, List.Perm.refl _, fun _ => rfl, fun h => (by cases h)⟩
    | true =>
      obtain ⟨idxs, h1, h2, h3, h4⟩ := sampleIndices_ok (n := l.length) (count := 2) (by omega) (hd (by omega))
      match idxs, h2 with
      | [i, j], _ =>
        have hi := h3 i (by simp)
        have hj := h3 j (by simp)
        obtain ⟨c, hc, hsw⟩ := swap?_ok hi hj
        refine ⟨c, by simpa [h1] using hc, SwappedAt.perm hi hj hsw, fun h => (by cases h), fun _ _ => ⟨i, j, hi, hj, ?_, hsw⟩⟩
        intro hl
        have := h4 hl
        simpa using this

example : swap2 true false [0, 3] ["a", "b", "c", "d"] = some ["d", "b", "c", "a"] := by decide
example : SampleDraws 4 2 false [0, 3] := by
  refine ⟨by decide, ?_⟩
  intro i n h
  have : firstLimit 0 (4 : Nat) 2 false = 2 := by decide
  rw [this]
  match i, h with
  | 0, h => simp at h; omega
  | 1, h => simp at h; omega

/-- C19: swap3 returns a permutation of the chromosome; for chromosomes of less than 65536 genes three genes at different
loci are moved cyclically. -/
theorem C19_swap3 (l : List α) (mutates selectMany : Bool) (draws : List Int)
    (hd : 3 ≤ l.length → SampleDraws l.length 3 selectMany draws) :
    ∃ c, swap3 mutates selectMany draws l = some c ∧ c.Perm l ∧ (mutates = false → c = l) ∧
      (mutates = true → 3 ≤ l.length → l.length < 65536 → ∃ i j k, i < l.length ∧ j < l.length ∧ k < l.length ∧ i ≠ j ∧ i ≠ k ∧ j ≠ k ∧
        CycledAt l i j k c) := by
  unfold swap3
  by_cases h : l.length < 3
  · rw [if_pos h]
    exact ⟨l, rfl, List.Perm.refl _, fun _ => rfl, fun _ h2 => by omega⟩
  · rw [if_neg h]
    cases mutates with
    | false => exact ⟨l, rfl, List.Perm.refl _, fun _ => rfl, fun h => (by cases h)⟩
    | true =>
      obtain ⟨idxs, h1, h2, h3, h4⟩ := sampleIndices_ok (n := l.length) (count := 3) (by omega) (hd (by omega))
      match idxs, h2 with
      | [i, j, k], _ =>
        have hi := h3 i (by simp)
        have hj := h3 j (by simp)
        have hk := h3 k (by simp)
        obtain ⟨c1, hc1, hsw1⟩ := swap?_ok hi hj
        have hl1 : c1.length = l.length := hsw1.1
        obtain ⟨c, hc, hsw⟩ := swap?_ok (l := c1) (i := i) (j := k) (by omega) (by omega)
        refine ⟨c, by simp [h1, hc1, hc], (SwappedAt.perm (by omega) (by omega) hsw).trans (SwappedAt.perm hi hj hsw1), fun h => (by cases h), fun _ _ hl => ?_⟩
        have hn := h4 hl
        simp only [List.nodup_cons, List.mem_cons, List.not_mem_nil, or_false, not_or, not_false_iff, List.nodup_nil, and_true] at hn
        obtain ⟨⟨hij, hik⟩, hjk⟩ := hn
        refine ⟨i, j, k, hi, hj, hk, hij, hik, hjk, by rw [hsw.1, hl1], ?_, ?_, ?_, ?_⟩
        · rw [hsw.2.2.2 j (Ne.symm hij) hjk]; exact hsw1.2.2.1
        · rw [hsw.2.2.1]; exact hsw1.2.1
        · rw [hsw.2.1]; exact hsw1.2.2.2 k (Ne.symm hik) (Ne.symm hjk)
        · intro m h1 h2 h3
          rw [hsw.2.2.2 m h1 h3, hsw1.2.2.2 m h1 h2]

example : swap3 true false [0, 1, 3] ["a", "b", "c", "d"] = some ["d", "a", "c", "b"] := by decide

/-- C19: shuffle returns a permutation of the chromosome and changes it only in the selected range. `shuffled` is what `std::shuffle` makes of the
range: any permutation of it. -/
theorem C19_shuffle (l : List α) (mutates : Bool) (scaled rangeLen first : Nat) (shuffled : List α) (hs : scaled ≤ l.length)
    (hlen : 2 ≤ rangeLen ∧ rangeLen ≤ maxRangeLen scaled 2) (hfirst : first ≤ l.length - rangeLen)
    (hsh : shuffled.Perm ((l.drop first).take rangeLen)) :
    ∃ c, shuffleMut mutates rangeLen first shuffled l = some c ∧ c.Perm l ∧
      (∀ i, i < first ∨ first + rangeLen ≤ i → c[i]? = l[i]?) ∧ (mutates = false → c = l) := by
  unfold shuffleMut
  split
  · exact ⟨l, rfl, List.Perm.refl _, fun _ _ => rfl, fun _ => rfl⟩
  · next h =>
    cases mutates with
    | false => exact ⟨l, rfl, List.Perm.refl _, fun _ _ => rfl, fun _ => rfl⟩
    | true =>
      simp only [maxRangeLen] at hlen
      have hb : first + rangeLen ≤ l.length := by omega
      have hshl : shuffled.length = rangeLen := by rw [hsh.length_eq]; simp; omega
      refine ⟨_, by simp only [if_true, hb]; rfl, ?_, ?_, fun h => (by cases h)⟩
      · have e : l = l.take first ++ (l.drop first).take rangeLen ++ l.drop (first + rangeLen) := by
          have := split3 l first (first + rangeLen) (by omega)
          rwa [← List.take_drop] at this
        conv_rhs => rw [e]
        exact List.Perm.append_right _ (List.Perm.append_left _ hsh)
      · intro i hi
        rcases hi with hi | hi
        · rw [List.append_assoc, List.getElem?_append_left (by simp; omega), List.getElem?_take_of_lt hi]
        · rw [List.getElem?_append_right (by simp; omega), List.getElem?_drop]
          congr 1
          simp; omega

example : shuffleMut true 3 1 [12, 13, 11] [10, 11, 12, 13, 14] = some [10, 12, 13, 11, 14] := by decide

/-- C19 and C20: shift returns a permutation of the chromosome, and moves the selected range to another place, as long as the range is not the whole
chromosome, i.e. for `range_max < 1`. The rest of C20 is refuted by `C20_shift_violated`. -/
theorem C20_shift_partial (l : List α) (mutates : Bool) (scaled rangeLen : Nat) (selectMany : Bool) (draws : List Int) (hs : scaled < l.length)
    (hlen : 1 ≤ rangeLen ∧ rangeLen ≤ maxRangeLen scaled 1)
    (hd : 2 ≤ l.length → SampleDraws (l.length - rangeLen + 1) 2 selectMany draws) :
    ∃ c, shift mutates rangeLen selectMany draws l = some c ∧ c.Perm l ∧ (mutates = false → c = l) ∧
      (mutates = true → 2 ≤ l.length → ∃ src dest, src + rangeLen ≤ l.length ∧ dest + rangeLen ≤ l.length ∧
        (l.length < 65536 → src ≠ dest) ∧ RangeMoved l src rangeLen dest c) := by
  unfold shift
  by_cases h : l.length < 2
  · rw [if_pos h]
    exact ⟨l, rfl, List.Perm.refl _, fun _ => rfl, fun _ h2 => by omega⟩
  · rw [if_neg h]
    cases mutates with
    | false => exact ⟨l, rfl, List.Perm.refl _, fun _ => rfl, fun h => (by cases h)⟩
    | true =>
      simp only [maxRangeLen] at hlen
      have hrl : rangeLen < l.length := by omega
      obtain ⟨idxs, h1, h2, h3, h4⟩ := sampleIndices_ok (n := l.length - rangeLen + 1) (count := 2) (by omega) (hd (by omega))
      match idxs, h2 with
      | [src, dest], _ =>
        have hsrc := h3 src (by simp)
        have hdest := h3 dest (by simp)
        have hne : l.length < 65536 → src ≠ dest := by
          intro hl
          have := h4 (by omega)
          simpa using this
        have hnl : ¬ l.length < rangeLen := by omega
        by_cases hlt : dest < src
        · have hr := rotateRange_ok (l := l) (first := dest) (middle := src) (last := src + rangeLen) (by omega) (by omega) (by omega)
          have hsplit := split4 l dest src (src + rangeLen) (by omega) (by omega)
          refine ⟨_, by simp [hnl, h1, hlt, hr]; rfl, ?_, fun h => (by cases h), fun _ _ => ⟨src, dest, by omega, by omega, hne, ?_⟩⟩
          · conv_rhs => rw [hsplit]
            simp only [List.append_assoc]
            apply List.Perm.append_left
            rw [← List.append_assoc, ← List.append_assoc]
            exact List.Perm.append_right _ List.perm_append_comm
          · refine ⟨l.take src, (l.take (src + rangeLen)).drop src, l.drop (src + rangeLen), split3 l src (src + rangeLen) (by omega), by simp; omega,
              by simp; omega, by simp; omega, ?_⟩
            have e1 : (l.take src ++ l.drop (src + rangeLen)).take dest = l.take dest := by
              rw [List.take_append_of_le_length (by simp; omega), List.take_take, Nat.min_eq_left (by omega)]
            have e2 : (l.take src ++ l.drop (src + rangeLen)).drop dest = (l.take src).drop dest ++ l.drop (src + rangeLen) := by
              rw [List.drop_append_of_le_length (by simp; omega)]
            rw [e1, e2]
            simp only [List.append_assoc]
        · have hr := rotateRange_ok (l := l) (first := src) (middle := src + rangeLen) (last := dest + rangeLen) (by omega) (by omega) (by omega)
          have hsplit := split4 l src (src + rangeLen) (dest + rangeLen) (by omega) (by omega)
          refine ⟨_, by simp [hnl, h1, hlt, hr]; rfl, ?_, fun h => (by cases h), fun _ _ => ⟨src, dest, by omega, by omega, hne, ?_⟩⟩
          · conv_rhs => rw [hsplit]
            simp only [List.append_assoc]
            apply List.Perm.append_left
            rw [← List.append_assoc, ← List.append_assoc]
            exact List.Perm.append_right _ List.perm_append_comm
          · refine ⟨l.take src, (l.take (src + rangeLen)).drop src, l.drop (src + rangeLen), split3 l src (src + rangeLen) (by omega), by simp; omega,
              by simp; omega, by simp; omega, ?_⟩
            have e0 : l.drop (src + rangeLen) = (l.take (dest + rangeLen)).drop (src + rangeLen) ++ l.drop (dest + rangeLen) := by
              conv_lhs => rw [hsplit]
              rw [List.append_assoc, List.drop_left']
              simp; omega
            have hl1 : (l.take src ++ (l.take (dest + rangeLen)).drop (src + rangeLen)).length = dest := by simp; omega
            rw [e0, ← List.append_assoc (l.take src) _ (l.drop (dest + rangeLen)), List.take_left' hl1, List.drop_left' hl1]
            simp only [List.append_assoc]

example : shift true 2 false [0, 2] ["a", "b", "c", "d", "e"] = some ["c", "d", "a", "b", "e"] := by decide
example : shift true 2 false [2, 0] ["a", "b", "c", "d", "e"] = some ["c", "d", "a", "b", "e"] := by decide
example : SampleDraws (5 - 2 + 1) 2 false [2, 0] := by
  refine ⟨by decide, ?_⟩
  intro i n h
  have : firstLimit 0 ((5 - 2 + 1 : Nat) : Int) 2 false = 2 := by decide
  rw [this]
  match i, h with
  | 0, h => simp at h; omega
  | 1, h => simp at h; omega

/-- C20: with `range_max = 1` the drawn range can be the whole chromosome. There is then only one place for it, but two different ones are
requested from `sampleUnique`, whose precondition is violated: the mutation fails for every chromosome, whatever is drawn. -/
theorem C20_shift_violated (l : List α) (hl : 2 ≤ l.length) :
    ∃ scaled rangeLen, scaled ≤ l.length ∧ 1 ≤ rangeLen ∧ rangeLen ≤ maxRangeLen scaled 1 ∧
      ∀ selectMany draws, shift true rangeLen selectMany draws l = none := by
  refine ⟨l.length, l.length, Nat.le_refl _, by omega, by simp [maxRangeLen], ?_⟩
  intro selectMany draws
  have h1 : ¬ l.length < 2 := by omega
  simp [shift, h1, sampleIndices]

example : 2 ≤ [1, 2].length := by decide

/-! ## Binary and integer genes -/

theorem xor_one_le {g : Nat} (h : g ≤ 1) : g ^^^ 1 ≤ 1 := by
  have : g = 0 ∨ g = 1 := by omega
  rcases this with rfl | rfl <;> decide

/-- C19: flip keeps the length and the genes binary, and changes nothing but the sampled loci. For chromosomes of less than 65536 genes exactly
`count` genes are flipped. -/
theorem C19_flip (l : List Nat) (hl : ∀ g ∈ l, g ≤ 1) (count : Nat) (hc : count ≤ l.length) (selectMany : Bool) (draws : List Int)
    (hd : SampleDraws l.length count selectMany draws) :
    ∃ c loci, flip count selectMany draws l = some c ∧ loci.length = count ∧ DifferOnlyAt l c loci ∧ (∀ g ∈ c, g ≤ 1) ∧
      (l.length < 65536 → loci.Nodup ∧ ∀ i ∈ loci, ∃ g, l[i]? = some g ∧ c[i]? = some (1 - g)) := by
  obtain ⟨idxs, h1, h2, h3, h4⟩ := sampleIndices_ok hc hd
  have hfst : (idxs.map (fun i => (i, ()))).map Prod.fst = idxs := by rw [List.map_map]; exact List.map_id _
  obtain ⟨c, hcc⟩ := updateAt_total (f := fun _ (_ : Unit) g => some (g ^^^ 1)) (idxs.map (fun i => (i, ()))) l
    (by intro p hp; obtain ⟨i, hi, rfl⟩ := List.mem_map.mp hp; exact h3 i hi) (by intro _ _ _ _; rfl)
  have hpart := updateAt_partial (fun _ g => g ≤ 1) _ l c hcc (by
    intro _ _ g g' _ hg he
    cases he
    exact xor_one_le hg) (by
    intro i g hg
    exact hl g (List.mem_of_getElem? hg))
  rw [hfst] at hpart
  refine ⟨c, idxs, by simp [Model.flip, h1, hcc], h2, hpart.1, ?_, ?_⟩
  · intro g hg
    obtain ⟨i, hi⟩ := List.mem_iff_getElem?.mp hg
    exact hpart.2 i g hi
  · intro hn
    refine ⟨h4 hn, ?_⟩
    intro i hi
    obtain ⟨g, g', a1, a2, a3⟩ := updateAt_nodup _ l c hcc (by rw [hfst]; exact h4 hn) i () (List.mem_map.mpr ⟨i, hi, rfl⟩)
    refine ⟨g, a1, ?_⟩
    rw [a3, ← a2]
    have : g = 0 ∨ g = 1 := by have := hl g (List.mem_of_getElem? a1); omega
    rcases this with rfl | rfl <;> rfl

example : flip 2 false [0, 3] [1, 1, 0, 0] = some [0, 1, 0, 1] := by decide

/-- C19: whenever integer uniform mutation returns, the chromosome has the same length, genes within the bounds, and differs from the old one
only at the sampled loci; at each of these the gene is a different one (chromosomes of less than 65536 genes). -/
theorem C19_int_uniform_partial (l : List Int) (lower upper : Nat → Int) (hl : WithinBounds lower upper l) (count : Nat) (hc : count ≤ l.length)
    (selectMany : Bool) (draws : List Int) (hd : SampleDraws l.length count selectMany draws) (geneDraws : List (List Int)) (c : List Int)
    (hgd : ∀ idxs i ds, sampleIndices l.length count selectMany draws = some idxs → (i, ds) ∈ idxs.zip geneDraws →
      ∀ x ∈ ds, lower i ≤ x ∧ x ≤ upper i)
    (h : intUniform count selectMany draws geneDraws l = some c) :
    WithinBounds lower upper c ∧ ∃ loci, loci.length = count ∧ DifferOnlyAt l c loci ∧
      (l.length < 65536 → loci.Nodup ∧ ∀ i ∈ loci, c[i]? ≠ l[i]?) := by
  obtain ⟨idxs, h1, h2, h3, h4⟩ := sampleIndices_ok hc hd
  simp only [intUniform, h1, Option.bind_eq_bind, Option.bind_some] at h
  split at h
  · next hlen =>
    have hfst : (idxs.zip geneDraws).map Prod.fst = idxs := by
      rw [List.map_fst_zip]; omega
    have hpart := updateAt_partial (fun i g => lower i ≤ g ∧ g ≤ upper i) _ l c h (by
      intro i ds g g' hm _ he
      exact hgd idxs i ds h1 hm g' (List.mem_of_find?_eq_some he)) hl
    rw [hfst] at hpart
    refine ⟨hpart.2, idxs, h2, hpart.1, ?_⟩
    intro hn
    refine ⟨h4 hn, ?_⟩
    intro i hi
    obtain ⟨ds, hds⟩ : ∃ ds, (i, ds) ∈ idxs.zip geneDraws := by
      rw [← hfst] at hi
      obtain ⟨p, hp, rfl⟩ := List.mem_map.mp hi
      exact ⟨p.2, hp⟩
    obtain ⟨g, g', a1, a2, a3⟩ := updateAt_nodup _ l c h (by rw [hfst]; exact h4 hn) i ds hds
    rw [a1, a3]
    have := List.find?_some a2
    simp only [ne_eq, decide_not, Bool.not_eq_true', decide_eq_false_iff_not] at this
    simpa using this
  · cases h

/-- C19: integer uniform mutation returns as soon as a gene different from the old one is drawn for each of the sampled loci, for chromosomes of less than
65536 genes. -/
theorem C19_int_uniform_returns_partial (l : List Int) (hn : l.length < 65536) (count : Nat) (hc : count ≤ l.length)
    (selectMany : Bool) (draws : List Int) (hd : SampleDraws l.length count selectMany draws) (geneDraws : List (List Int))
    (hlen : geneDraws.length = count)
    (hgd : ∀ idxs i ds, sampleIndices l.length count selectMany draws = some idxs → (i, ds) ∈ idxs.zip geneDraws →
      ∃ x ∈ ds, l[i]? ≠ some x) :
    ∃ c, intUniform count selectMany draws geneDraws l = some c := by
  obtain ⟨idxs, h1, h2, h3, h4⟩ := sampleIndices_ok hc hd
  have hfst : (idxs.zip geneDraws).map Prod.fst = idxs := by
    rw [List.map_fst_zip]; omega
  simp only [intUniform, h1, Option.bind_eq_bind, Option.bind_some, h2, hlen, if_true]
  apply updateAt_nodup_total
  · rw [hfst]; exact h4 hn
  · intro i ds hm
    obtain ⟨x, hx, hne⟩ := hgd idxs i ds h1 hm
    have hi : i < l.length := h3 i (by rw [← hfst]; exact List.mem_map.mpr ⟨_, hm, rfl⟩)
    refine ⟨l[i], List.getElem?_eq_getElem hi, ?_⟩
    simp only [newIntGene]
    rw [List.find?_isSome]
    refine ⟨x, hx, ?_⟩
    rw [List.getElem?_eq_getElem hi] at hne
    simp only [ne_eq, decide_not, Bool.not_eq_true', decide_eq_false_iff_not]
    intro e; exact hne (by rw [e])

/-- C19: if the bounds of a gene allow only one value, which is a legal choice of bounds, then the mutation of this gene never
ends: the loop goes on after any number of draws. -/
theorem C19_int_uniform_never_returns (lower upper : Int) (h : lower = upper) (old : Int) (hold : lower ≤ old ∧ old ≤ upper) (draws : List Int)
    (hd : ∀ x ∈ draws, lower ≤ x ∧ x ≤ upper) : newIntGene old draws = none := by
  rw [newIntGene, List.find?_eq_none]
  intro x hx
  have := hd x hx
  simp
  omega

/-- C19: a chromosome on which integer uniform mutation hangs. -/
theorem C19_int_uniform_hangs :
    ¬ ∀ (l : List Int) (lower upper : Nat → Int), WithinBounds lower upper l → (∀ i, lower i ≤ upper i) → l.length = 1 →
      ∃ geneDraws : List (List Int), (∀ ds ∈ geneDraws, ∀ x ∈ ds, lower 0 ≤ x ∧ x ≤ upper 0) ∧ ∃ c, intUniform 1 false [0] geneDraws l = some c := by
  intro h
  obtain ⟨gd, h1, c, h2⟩ := h [5] (fun _ => 5) (fun _ => 5) (by
    intro i g hg
    have : g ∈ [(5 : Int)] := List.mem_of_getElem? hg
    simp at this; subst this; exact ⟨Int.le_refl _, Int.le_refl _⟩) (fun _ => Int.le_refl _) rfl
  have hs : sampleIndices [(5 : Int)].length 1 false [0] = some [0] := by decide
  simp only [intUniform, hs, Option.bind_eq_bind, Option.bind_some] at h2
  split at h2
  · next hlen =>
    match gd, hlen with
    | [ds], _ =>
      have := C19_int_uniform_never_returns 5 5 rfl 5 (by omega) ds (h1 ds (by simp))
      simp [updateAt, this] at h2
  · cases h2

example : intUniform 2 false [0, 2] [[7], [9, 8]] [7, 8, 9] = none := by decide
example : intUniform 2 false [0, 2] [[7, 5], [9, 8]] [7, 8, 9] = some [5, 8, 8] := by decide

/-! ## Real genes -/

section
variable {K : Type} [Field K] [LinearOrder K] [IsStrictOrderedRing K]

/-- The common part of the real-coded mutations: if the rule for one gene gives a gene within the bounds then the mutated chromosome has the same length, is
within the bounds, and differs from the old one only at the sampled loci. -/
theorem realMutate_ok {β : Type} (gene : GeneBounds K → β → K → K) (ok : β → Prop)
    (hgene : ∀ b d old, ok d → b.lower ≤ b.upper → b.lower ≤ gene b d old ∧ gene b d old ≤ b.upper)
    (bounds : List (GeneBounds K)) (hb : ∀ b ∈ bounds, b.lower ≤ b.upper) (l : List K) (hbl : bounds.length = l.length)
    (hl : ∀ (i : Nat) (b : GeneBounds K) (g : K), bounds[i]? = some b → l[i]? = some g → b.lower ≤ g ∧ g ≤ b.upper)
    (count : Nat) (hc : count ≤ l.length) (selectMany : Bool) (draws : List Int) (hd : SampleDraws l.length count selectMany draws)
    (geneDraws : List β) (hgl : geneDraws.length = count) (hgd : ∀ d ∈ geneDraws, ok d) :
    ∃ c loci, realMutate gene bounds count selectMany draws geneDraws l = some c ∧ loci.length = count ∧ DifferOnlyAt l c loci ∧
      ∀ (i : Nat) (b : GeneBounds K) (g : K), bounds[i]? = some b → c[i]? = some g → b.lower ≤ g ∧ g ≤ b.upper := by
  obtain ⟨idxs, h1, h2, h3, h4⟩ := sampleIndices_ok hc hd
  have hfst : (idxs.zip geneDraws).map Prod.fst = idxs := by
    rw [List.map_fst_zip]; omega
  have hzip : ∀ i d, (i, d) ∈ idxs.zip geneDraws → i < l.length ∧ d ∈ geneDraws := by
    intro i d hm
    exact ⟨h3 i (List.of_mem_zip hm).1, (List.of_mem_zip hm).2⟩
  obtain ⟨c, hcc⟩ := updateAt_total (f := fun idx d old => do
      let b ← bounds[idx]?
      return gene b d old) (idxs.zip geneDraws) l
    (by intro p hp; exact (hzip p.1 p.2 hp).1)
    (by
      intro i d g hm
      have hi := (hzip i d hm).1
      rw [List.getElem?_eq_getElem (by omega)]; rfl)
  have hpart := updateAt_partial (fun i g => ∀ b, bounds[i]? = some b → b.lower ≤ g ∧ g ≤ b.upper) _ l c hcc (by
    intro i d g g' hm _ he b hbi
    rw [hbi] at he
    cases he
    exact hgene b d g (hgd d (hzip i d hm).2) (hb b (List.mem_of_getElem? hbi))) (by
    intro i g hg b hbi
    exact hl i b g hbi hg)
  rw [hfst] at hpart
  refine ⟨c, idxs, ?_, h2, hpart.1, fun i b g hbi hg => hpart.2 i g hg b hbi⟩
  simp only [realMutate, h1, Option.bind_eq_bind, Option.bind_some, h2, hgl, if_true]
  exact hcc

/-- The statement of C19 for a real-coded mutation. `ok` says which draws are possible. -/
def RealMutationOk {β : Type} (gene : GeneBounds K → β → K → K) (ok : β → Prop) : Prop :=
  ∀ (bounds : List (GeneBounds K)), (∀ b ∈ bounds, b.lower ≤ b.upper) → ∀ (l : List K), bounds.length = l.length →
    (∀ (i : Nat) (b : GeneBounds K) (g : K), bounds[i]? = some b → l[i]? = some g → b.lower ≤ g ∧ g ≤ b.upper) →
    ∀ (count : Nat), count ≤ l.length → ∀ (selectMany : Bool) (draws : List Int), SampleDraws l.length count selectMany draws →
    ∀ (geneDraws : List β), geneDraws.length = count → (∀ d ∈ geneDraws, ok d) →
    ∃ c loci, realMutate gene bounds count selectMany draws geneDraws l = some c ∧ loci.length = count ∧ DifferOnlyAt l c loci ∧
      ∀ (i : Nat) (b : GeneBounds K) (g : K), bounds[i]? = some b → c[i]? = some g → b.lower ≤ g ∧ g ≤ b.upper

/-- C19: `real::Uniform`; the draws are in `[0, 1]`. -/
theorem C19_real_uniform : RealMutationOk (K := K) realUniformGene (fun r => 0 ≤ r ∧ r ≤ 1) := by
  intro bounds hb l hbl hl count hc sm draws hd gd hgl hgd
  refine realMutate_ok realUniformGene _ ?_ bounds hb l hbl hl count hc sm draws hd gd hgl hgd
  intro b r old ⟨h0, h1⟩ hle
  unfold realUniformGene
  have h2 : 0 ≤ b.upper - b.lower := by linarith
  have h3 := mul_nonneg h2 h0
  have h4 := mul_le_mul_of_nonneg_left h1 h2
  constructor <;> linarith

/-- C19: `real::NonUniform`, whatever the multiplier. -/
theorem C19_real_nonuniform : RealMutationOk (K := K) realNonUniformGene (fun _ => True) := by
  intro bounds hb l hbl hl count hc sm draws hd gd hgl hgd
  exact realMutate_ok realNonUniformGene _ (fun b d old _ hle => stdClamp_bounds _ _ _ hle) bounds hb l hbl hl count hc sm draws hd gd hgl hgd

/-- C19: `real::Gauss`, whatever the draw. -/
theorem C19_real_gauss (sigma : K) : RealMutationOk (realGaussGene sigma) (fun _ => True) := by
  intro bounds hb l hbl hl count hc sm draws hd gd hgl hgd
  exact realMutate_ok (realGaussGene sigma) _ (fun b d old _ hle => stdClamp_bounds _ _ _ hle) bounds hb l hbl hl count hc sm draws hd gd hgl hgd

/-- C19: `real::Polynomial`, whatever the draw. -/
theorem C19_real_polynomial : RealMutationOk (K := K) realPolynomialGene (fun _ => True) := by
  intro bounds hb l hbl hl count hc sm draws hd gd hgl hgd
  exact realMutate_ok realPolynomialGene _ (fun b d old _ hle => stdClamp_bounds _ _ _ hle) bounds hb l hbl hl count hc sm draws hd gd hgl hgd

/-- C19: `real::Boundary`. -/
theorem C19_real_boundary : RealMutationOk (K := K) realBoundaryGene (fun _ => True) := by
  intro bounds hb l hbl hl count hc sm draws hd gd hgl hgd
  refine realMutate_ok realBoundaryGene _ ?_ bounds hb l hbl hl count hc sm draws hd gd hgl hgd
  intro b d old _ hle
  unfold realBoundaryGene
  split
  · exact ⟨_root_.le_refl _, hle⟩
  · exact ⟨hle, _root_.le_refl _⟩

/-- C19: what the mutations do to one gene `old` within the bounds. Gauss: if the draw `z` times the documented standard deviation keeps the gene within the bounds it is moved by this amount.
Non-uniform: the gene is moved towards the selected bound, by the fraction `m` of the distance. Polynomial: likewise, by the fraction `1 - p`, where `p` is the value of the power function, towards
the lower bound if `alpha <= 1/2`, and else towards the upper bound. Boundary: one of the bounds. -/
theorem C19_real_gene_rules (b : GeneBounds K) (old : K) (hold : b.lower ≤ old ∧ old ≤ b.upper) :
    (∀ sigma z, b.lower ≤ old + z * ((b.upper - b.lower) / sigma) → old + z * ((b.upper - b.lower) / sigma) ≤ b.upper →
      realGaussGene sigma b z old = old + z * ((b.upper - b.lower) / sigma)) ∧
    (∀ m, 0 ≤ m → m ≤ 1 → realNonUniformGene b (m, true) old = (1 - m) * old + m * b.lower ∧
      realNonUniformGene b (m, false) old = (1 - m) * old + m * b.upper) ∧
    (∀ alpha p, 0 ≤ p → p ≤ 1 → (2 * alpha ≤ 1 → realPolynomialGene b (alpha, p) old = p * old + (1 - p) * b.lower) ∧
      (1 < 2 * alpha → realPolynomialGene b (alpha, p) old = p * old + (1 - p) * b.upper)) ∧
    (∀ lower, realBoundaryGene b lower old = b.lower ∨ realBoundaryGene b lower old = b.upper) := by
  obtain ⟨ho1, ho2⟩ := hold
  have conv : ∀ m c : K, 0 ≤ m → m ≤ 1 → b.lower ≤ c → c ≤ b.upper → b.lower ≤ (1 - m) * old + m * c ∧ (1 - m) * old + m * c ≤ b.upper := by
    intro m c h0 h1 hc1 hc2
    have h1' : 0 ≤ 1 - m := by linarith
    have e1 := mul_le_mul_of_nonneg_left ho1 h1'
    have e2 := mul_le_mul_of_nonneg_left ho2 h1'
    have e3 := mul_le_mul_of_nonneg_left hc1 h0
    have e4 := mul_le_mul_of_nonneg_left hc2 h0
    have f1 : (1 - m) * b.lower + m * b.lower = b.lower := by ring
    have f2 : (1 - m) * b.upper + m * b.upper = b.upper := by ring
    constructor <;> linarith
  have hlu : b.lower ≤ b.upper := le_trans ho1 ho2
  refine ⟨?_, ?_, ?_, ?_⟩
  · intro sigma z h1 h2
    have e : old + ((b.upper - b.lower) / sigma * z + 0) = old + z * ((b.upper - b.lower) / sigma) := by ring
    simp only [realGaussGene, e]
    exact stdClamp_eq _ _ _ h1 h2
  · intro m h0 h1
    have el : old + (b.lower - old) * m = (1 - m) * old + m * b.lower := by ring
    have eu : old + (b.upper - old) * m = (1 - m) * old + m * b.upper := by ring
    simp only [realNonUniformGene, if_true, Bool.false_eq_true, if_false, el, eu]
    obtain ⟨a1, a2⟩ := conv m b.lower h0 h1 (_root_.le_refl _) hlu
    obtain ⟨a3, a4⟩ := conv m b.upper h0 h1 hlu (_root_.le_refl _)
    exact ⟨stdClamp_eq _ _ _ a1 a2, stdClamp_eq _ _ _ a3 a4⟩
  · intro alpha p h0 h1
    have el : old + (p - 1) * (old - b.lower) = p * old + (1 - p) * b.lower := by ring
    have eu : old + (1 - p) * (b.upper - old) = p * old + (1 - p) * b.upper := by ring
    obtain ⟨a1, a2⟩ := conv (1 - p) b.lower (by linarith) (by linarith) (_root_.le_refl _) hlu
    obtain ⟨a3, a4⟩ := conv (1 - p) b.upper (by linarith) (by linarith) hlu (_root_.le_refl _)
    rw [sub_sub_cancel] at a1 a2 a3 a4
    constructor
    · intro ha
      have : alpha ≤ 1 / 2 := by linarith
      simp only [realPolynomialGene, this, if_true, el]
      exact stdClamp_eq _ _ _ a1 a2
    · intro ha
      have : ¬ alpha ≤ 1 / 2 := by intro h; linarith
      simp only [realPolynomialGene, this, if_false, eu]
      exact stdClamp_eq _ _ _ a3 a4
  · intro lower
    cases lower
    · exact Or.inr rfl
    · exact Or.inl rfl

end

example : realMutate (K := ℚ) (realGaussGene 2) [⟨0, 4⟩, ⟨-1, 1⟩] 1 false [1] [3] [2, 0] = some [2, 1] := by
  have : sampleIndices 2 1 false [1] = some [1] := by decide
  simp only [realMutate, List.length_cons, List.length_nil, this]
  norm_num [updateAt, realGaussGene, stdClamp]

end Gapp.Props
