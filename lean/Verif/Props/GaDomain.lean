import Verif.Proofs.GaDomain
import Verif.Props.Crossover
import Verif.Props.Mutation
import Verif.Props.Encoding
import Verif.Props.Double
import Verif.Props.GaLoop
/-!
# Properties of whole runs: the domain of the chromosomes

C64. The theorems about the operators, C12 to C20, C51 and C61, together with the loop: no chromosome outside of the domain of the encoding is ever evaluated, kept or returned. There is no assumption
about the algorithm, the stop condition, the fitness function, the tolerances, the schedules of the parallel loops or the number of generations.
-/

namespace Gapp.Props
open Gapp.Model Gapp.Spec

section
variable {G K A S V : Type} [DecidableEq G] [CommRing K] [LinearOrder K]

/-- C64: if the operators of a run map chromosomes of a domain to chromosomes of the domain, then the whole run is within the domain. -/
theorem C64_run (env : GaEnv G K A S V) (prev : GaState G (FVec K) A V) (initial : List (Cand G (FVec K))) (D : List G → Prop) (hu : UserParts env initial D)
    (hgen : ∀ k, D (env.generate k))
    (hcross : ∀ g k p q, D p.chrom → D q.chrom → D (env.crossMethod g k p q).1.chrom ∧ D (env.crossMethod g k p q).2.chrom)
    (hmut : ∀ g k c, D c.chrom → D (env.mutate g k c)) : RunWithin env prev initial D :=
  have h : KeepsDomain env initial D := ⟨hgen, hcross, hmut, hu⟩
  ⟨gaGens_domain env prev initial D h, gaSolve_domain env prev initial D h⟩
end

section
variable {K A S V : Type} [CommRing K] [LinearOrder K]

/-! ## Permutations -/

theorem isPermOf_iff (n : Nat) (l : List Nat) : IsPermOf n l ↔ IsIntPerm l ∧ l.length = n := by
  constructor
  · intro h
    have hl : l.length = n := by simpa using h.length_eq
    exact ⟨by unfold IsIntPerm; rw [hl]; exact h, hl⟩
  · rintro ⟨h, rfl⟩; exact h

theorem permCross_length {p1 p2 c1 c2 : List Nat} (h : PermCrossResult p1 p2 c1 c2) (hp1 : IsIntPerm p1) (hp2 : IsIntPerm p2) (hl : p1.length = p2.length) :
    (IsIntPerm c1 ∧ c1.length = p1.length) ∧ IsIntPerm c2 ∧ c2.length = p1.length := by
  by_cases hn : p1.length < 2
  · have : c1 = p1 ∧ c2 = p2 := by
      cases h with
      | order1 draw h => simp [permOrder1, hn] at h; exact ⟨h.1.symm, h.2.symm⟩
      | order2 draw h => simp [permOrder2, hn] at h; exact ⟨h.1.symm, h.2.symm⟩
      | position draw h => simp [permPosition, hn] at h; exact ⟨h.1.symm, h.2.symm⟩
      | cycle h => simp [permCycle, hn] at h; exact ⟨h.1.symm, h.2.symm⟩
      | edge h => simp [permEdge, hn] at h; exact ⟨h.1.symm, h.2.symm⟩
      | pmx draw h => simp [permPmx, hn] at h; exact ⟨h.1.symm, h.2.symm⟩
    obtain ⟨rfl, rfl⟩ := this
    exact ⟨⟨hp1, rfl⟩, hp2, hl.symm⟩
  · have h2 : 2 ≤ p1.length := by omega
    cases h with
    | order1 draw h =>
      obtain ⟨⟨d1, d2, he, i1, i2, hc⟩, -⟩ := C13_operators p1 p2 hp1 hp2 hl draw
      rw [h] at he; obtain ⟨rfl, rfl⟩ := Prod.mk.inj (Option.some.inj he)
      exact ⟨⟨i1, (hc h2).1.1.length_eq⟩, i2, (hc h2).2.1.length_eq.trans hl.symm⟩
    | order2 draw h =>
      obtain ⟨-, d1, d2, he, i1, i2, hc⟩ := C13_operators p1 p2 hp1 hp2 hl draw
      rw [h] at he; obtain ⟨rfl, rfl⟩ := Prod.mk.inj (Option.some.inj he)
      exact ⟨⟨i1, (hc h2).1.1.length_eq⟩, i2, (hc h2).2.1.length_eq.trans hl.symm⟩
    | position draw h =>
      obtain ⟨-, hx⟩ := C14_overloads_and_operator p1 p2 hp1 hp2 hl
      obtain ⟨d1, d2, he, i1, i2, hc⟩ := hx draw
      rw [h] at he; obtain ⟨rfl, rfl⟩ := Prod.mk.inj (Option.some.inj he)
      exact ⟨⟨i1, (hc h2).1.1.length_eq⟩, i2, (hc h2).2.1.length_eq.trans hl.symm⟩
    | cycle h =>
      obtain ⟨-, d1, d2, he, i1, i2, hc⟩ := C15_overloads_and_operator p1 p2 hp1 hp2 hl
      rw [h] at he; obtain ⟨rfl, rfl⟩ := Prod.mk.inj (Option.some.inj he)
      exact ⟨⟨i1, (hc h2).length1⟩, i2, (hc h2).length2.trans hl.symm⟩
    | edge h =>
      obtain ⟨d1, d2, he, i1, i2, hc⟩ := C16_operator_partial p1 p2 hp1 hp2 hl
      rw [h] at he; obtain ⟨rfl, rfl⟩ := Prod.mk.inj (Option.some.inj he)
      exact ⟨⟨i1, (hc h2).1.1.length_eq⟩, i2, (hc h2).2.1.length_eq.trans hl.symm⟩
    | pmx draw h =>
      obtain ⟨-, hx⟩ := C17_overloads_and_operator p1 p2 hp1 hp2 hl
      obtain ⟨d1, d2, he, i1, i2, hc⟩ := hx draw
      rw [h] at he; obtain ⟨rfl, rfl⟩ := Prod.mk.inj (Option.some.inj he)
      exact ⟨⟨i1, (hc h2).1.1.length_eq⟩, i2, (hc h2).2.1.length_eq.trans hl.symm⟩

/-- C64: every chromosome of a run of a `PermutationGA` is a permutation. -/
theorem C64_permutation (env : GaEnv Nat K A S V) (n : Nat) (h : UsesPermutations env n) (prev : GaState Nat (FVec K) A V) (initial : List (Cand Nat (FVec K)))
    (hu : UserParts env initial (IsPermOf n)) : RunWithin env prev initial (IsPermOf n) := by
  refine C64_run env prev initial _ hu ?_ ?_ ?_
  · intro k
    obtain ⟨us, hus⟩ := h.generate k
    rw [hus]; exact C51_permutation n us
  · intro g k p q hp hq
    have hr := h.cross g k p q hp hq
    obtain ⟨hp1, hp2⟩ := (isPermOf_iff n _).mp hp
    obtain ⟨hq1, hq2⟩ := (isPermOf_iff n _).mp hq
    obtain ⟨⟨a1, a2⟩, b1, b2⟩ := permCross_length hr hp1 hq1 (hp2.trans hq2.symm)
    exact ⟨(isPermOf_iff n _).mpr ⟨a1, a2.trans hp2⟩, (isPermOf_iff n _).mpr ⟨b1, b2.trans hp2⟩⟩
  · intro g k c hc
    refine List.Perm.trans ?_ hc
    cases h.mutate g k c hc with
    | inversion mutates scaled rangeLen first hs hlen hfirst h =>
      obtain ⟨x, h1, h2, -⟩ := C19_inversion _ mutates scaled rangeLen first hs hlen hfirst
      rw [h] at h1; obtain rfl := Option.some.inj h1; exact h2
    | swap2 mutates sm draws hd h =>
      obtain ⟨x, h1, h2, -⟩ := C19_swap2 _ mutates sm draws hd
      rw [h] at h1; obtain rfl := Option.some.inj h1; exact h2
    | swap3 mutates sm draws hd h =>
      obtain ⟨x, h1, h2, -⟩ := C19_swap3 _ mutates sm draws hd
      rw [h] at h1; obtain rfl := Option.some.inj h1; exact h2
    | shuffle mutates scaled rangeLen first shuffled hs hlen hfirst hsh h =>
      obtain ⟨x, h1, h2, -⟩ := C19_shuffle _ mutates scaled rangeLen first shuffled hs hlen hfirst hsh
      rw [h] at h1; obtain rfl := Option.some.inj h1; exact h2
    | shift mutates scaled rangeLen sm draws hs hlen hd h =>
      by_cases hlt : rangeLen < c.chrom.length
      · obtain ⟨x, h1, h2, -⟩ := C20_shift_partial _ mutates rangeLen rangeLen sm draws hlt ⟨hlen.1, Nat.le_max_left _ _⟩ hd
        rw [h] at h1; obtain rfl := Option.some.inj h1; exact h2
      · unfold shift at h
        by_cases h2 : c.chrom.length < 2
        · rw [if_pos h2] at h; rw [← Option.some.inj h]
        · rw [if_neg h2] at h
          cases mutates with
          | false => simp at h; rw [← h]
          | true =>
            have hle : rangeLen ≤ c.chrom.length := by
              have := hlen.2; unfold maxRangeLen at this; omega
            have he : rangeLen = c.chrom.length := by omega
            subst he
            simp [sampleIndices] at h

/-! ## Bit strings and integers -/

theorem exchanged_genes {α : Type} {p1 p2 c1 c2 : List α} {X : Nat → Prop} (hl : p1.length = p2.length) (h : Exchanged p1 p2 X c1 c2) (P : Nat → α → Prop)
    (h1 : ∀ i x, p1[i]? = some x → P i x) (h2 : ∀ i x, p2[i]? = some x → P i x) :
    (c1.length = p1.length ∧ ∀ i x, c1[i]? = some x → P i x) ∧ c2.length = p1.length ∧ ∀ i x, c2[i]? = some x → P i x := by
  refine ⟨⟨h.length1, fun i x hx => ?_⟩, h.length2.trans hl.symm, fun i x hx => ?_⟩
  · have hi : i < p1.length := by
      by_contra hge
      rw [List.getElem?_eq_none (by rw [h.length1]; omega)] at hx; cases hx
    by_cases hX : X i
    · rw [(h.exchanged i hi hX).1] at hx; exact h2 i x hx
    · rw [(h.kept i hi hX).1] at hx; exact h1 i x hx
  · have hi : i < p1.length := by
      by_contra hge
      rw [List.getElem?_eq_none (by rw [h.length2]; omega)] at hx; cases hx
    by_cases hX : X i
    · rw [(h.exchanged i hi hX).2] at hx; exact h1 i x hx
    · rw [(h.kept i hi hX).2] at hx; exact h2 i x hx

/-- Whatever holds of the genes of both parents locus by locus holds of the genes of the children. -/
theorem pointCross_genes {α : Type} {p1 p2 c1 c2 : List α} (h : PointCrossResult p1 p2 c1 c2) (hl : p1.length = p2.length) (P : Nat → α → Prop)
    (h1 : ∀ i x, p1[i]? = some x → P i x) (h2 : ∀ i x, p2[i]? = some x → P i x) :
    (c1.length = p1.length ∧ ∀ i x, c1[i]? = some x → P i x) ∧ c2.length = p1.length ∧ ∀ i x, c2[i]? = some x → P i x := by
  obtain ⟨o1, o2, o3, o4⟩ := C12_operators p1 p2 hl
  cases h with
  | singlePoint point h =>
    obtain ⟨X, d1, d2, he, hx⟩ := o1 point
    rw [h] at he; obtain ⟨rfl, rfl⟩ := Prod.mk.inj (Option.some.inj he)
    exact exchanged_genes hl hx P h1 h2
  | twoPoint a b h =>
    obtain ⟨X, d1, d2, he, hx⟩ := o2 a b
    rw [h] at he; obtain ⟨rfl, rfl⟩ := Prod.mk.inj (Option.some.inj he)
    exact exchanged_genes hl hx P h1 h2
  | nPoint draw h =>
    obtain ⟨X, d1, d2, he, hx⟩ := o3 draw
    rw [h] at he; obtain ⟨rfl, rfl⟩ := Prod.mk.inj (Option.some.inj he)
    exact exchanged_genes hl hx P h1 h2
  | uniform draw h =>
    obtain ⟨X, d1, d2, he, hx⟩ := o4 draw
    rw [h] at he; obtain ⟨rfl, rfl⟩ := Prod.mk.inj (Option.some.inj he)
    exact exchanged_genes hl hx P h1 h2

theorem boolDraws_length : ∀ (n : Nat) (pool : BitVec 64) (gen : List (BitVec 64)) (r), boolDraws n pool gen = some r → r.1.length = n := by
  intro n
  induction n with
  | zero => intro pool gen r h; obtain rfl := Option.some.inj h; rfl
  | succ n ih =>
    intro pool gen r h
    unfold boolDraws at h
    cases h1 : boolDraw pool gen with
    | none => rw [h1] at h; cases h
    | some x =>
      rw [h1] at h
      simp only [Option.bind_eq_bind, Option.bind_some] at h
      cases h2 : boolDraws n x.2.1 x.2.2 with
      | none => rw [h2] at h; cases h
      | some y =>
        rw [h2] at h
        obtain rfl := Option.some.inj h
        simp [ih _ _ _ h2]

theorem isBitString_iff (n : Nat) (l : List Nat) : IsBitString n l ↔ l.length = n ∧ ∀ (i x : Nat), l[i]? = some x → x = 0 ∨ x = 1 := by
  constructor
  · rintro ⟨h1, h2⟩; exact ⟨h1, fun i x hx => h2 x (List.mem_of_getElem? hx)⟩
  · rintro ⟨h1, h2⟩
    refine ⟨h1, fun x hx => ?_⟩
    obtain ⟨i, hi⟩ := List.getElem?_of_mem hx
    exact h2 i x hi

/-- C64: every chromosome of a run of a `BinaryGA` is a string of bits of the right length. -/
theorem C64_binary (env : GaEnv Nat K A S V) (n : Nat) (h : UsesBits env n) (prev : GaState Nat (FVec K) A V) (initial : List (Cand Nat (FVec K)))
    (hu : UserParts env initial (IsBitString n)) : RunWithin env prev initial (IsBitString n) := by
  refine C64_run env prev initial _ hu ?_ ?_ ?_
  · intro k
    obtain ⟨pool, gen, bits, h1, h2⟩ := h.generate k
    rw [h2]
    have hb : bits.length = n := by
      unfold generateBinary at h1
      cases h3 : boolDraws n pool gen with
      | none => rw [h3] at h1; cases h1
      | some r => rw [h3] at h1; obtain rfl := Option.some.inj h1; exact boolDraws_length _ _ _ _ h3
    refine ⟨by simpa using hb, fun x hx => ?_⟩
    obtain ⟨b, -, rfl⟩ := List.mem_map.mp hx
    cases b
    · exact Or.inl rfl
    · exact Or.inr rfl
  · intro g k p q hp hq
    have hr := h.cross g k p q hp hq
    rw [isBitString_iff] at hp hq
    obtain ⟨⟨a1, a2⟩, b1, b2⟩ := pointCross_genes hr (hp.1.trans hq.1.symm) (fun _ x => x = 0 ∨ x = 1) hp.2 hq.2
    rw [isBitString_iff, isBitString_iff]
    exact ⟨⟨a1.trans hp.1, a2⟩, b1.trans hp.1, b2⟩
  · intro g k c hc
    obtain ⟨count, sm, draws, h1, h2, h3⟩ := h.mutate g k c hc
    obtain ⟨hl, hg⟩ := hc
    obtain ⟨x, loci, e, -, d, b, -⟩ := C19_flip c.chrom (fun g hx => by rcases hg g hx with h | h <;> omega) count (by omega) sm draws (by rw [hl]; exact h2)
    rw [h3] at e
    obtain rfl := Option.some.inj e
    exact ⟨d.1.trans hl, fun y hy => by have := b y hy; omega⟩

/-- C64: every chromosome of a run of an `IntegerGA` is within the bounds. -/
theorem C64_integer (env : GaEnv Int K A S V) (bounds : List (Int × Int)) (hb : ∀ b ∈ bounds, b.1 ≤ b.2) (h : UsesIntegers env bounds) (prev : GaState Int (FVec K) A V)
    (initial : List (Cand Int (FVec K))) (hu : UserParts env initial (IntsWithin bounds)) : RunWithin env prev initial (IntsWithin bounds) := by
  have hiff : ∀ l, IntsWithin bounds l ↔ l.length = bounds.length ∧ ∀ (i : Nat) (x : Int), l[i]? = some x → ∀ b, bounds[i]? = some b → b.1 ≤ x ∧ x ≤ b.2 := by
    intro l
    exact ⟨fun h => ⟨h.1, fun i x hx b hbi => h.2 i b x hbi hx⟩, fun h => ⟨h.1, fun i b x hbi hx => h.2 i x hx b hbi⟩⟩
  refine C64_run env prev initial _ hu ?_ ?_ ?_
  · intro k
    obtain ⟨us, h1⟩ := h.generate k
    obtain ⟨x, h2, h3, h4⟩ := C51_integer bounds hb us
    rw [h1] at h2
    obtain rfl := Option.some.inj h2
    exact ⟨h3, fun i b x hbi hx => h4 i x b hx hbi⟩
  · intro g k p q hp hq
    have hr := h.cross g k p q hp hq
    rw [hiff] at hp hq
    obtain ⟨⟨a1, a2⟩, b1, b2⟩ := pointCross_genes hr (hp.1.trans hq.1.symm) (fun i x => ∀ b, bounds[i]? = some b → b.1 ≤ x ∧ x ≤ b.2) hp.2 hq.2
    rw [hiff, hiff]
    exact ⟨⟨a1.trans hp.1, a2⟩, b1.trans hp.1, b2⟩
  · intro g k c hc
    obtain ⟨count, sm, draws, gd, h1, h2, h3, h4⟩ := h.mutate g k c hc
    obtain ⟨hl, hg⟩ := hc
    obtain ⟨b, loci, -, d, -⟩ := C19_int_uniform_partial c.chrom (fun i => (bounds.getD i (0, 0)).1) (fun i => (bounds.getD i (0, 0)).2) (by
        intro i x hx
        have hi : i < bounds.length := by
          by_contra hge
          rw [List.getElem?_eq_none (by omega)] at hx; cases hx
        simp only [List.getD_eq_getElem?_getD, List.getElem?_eq_getElem hi, Option.getD_some]
        exact hg i _ x (List.getElem?_eq_getElem hi) hx)
      count (by omega) sm draws (by rw [hl]; exact h2) gd (env.mutate g k c) (by
        intro idxs i ds e hmem x hx
        rw [hl] at e
        have hi : i < bounds.length := by
          obtain ⟨idxs', k1, -, k2, -⟩ := sampleIndices_ok h1 h2
          rw [e] at k1
          obtain rfl := Option.some.inj k1
          exact k2 i (List.of_mem_zip hmem).1
        simp only [List.getD_eq_getElem?_getD, List.getElem?_eq_getElem hi, Option.getD_some]
        exact h3 idxs i ds _ e hmem (List.getElem?_eq_getElem hi) x hx) h4
    refine ⟨d.1.trans hl, fun i bd x hbi hx => ?_⟩
    have := b i x hx
    simpa only [List.getD_eq_getElem?_getD, hbi, Option.getD_some] using this

/-! ## Real numbers -/

theorem realMutReturns_legal {β : Type} {gene : GeneBounds Dbl → β → Dbl → Option Dbl} {ok : β → Prop} {sane : GeneBounds Dbl → Prop} (hok : DoubleMutationOk gene ok sane)
    {bounds : List (GeneBounds Dbl)} (hb : ∀ b ∈ bounds, sane b) {l c : List Dbl} (hl : LegalDoubles bounds l) (h : RealMutReturns gene ok bounds l c) : LegalDoubles bounds c := by
  obtain ⟨count, sm, draws, gd, h1, h2, h3, h4, h5⟩ := h
  obtain ⟨x, loci, e, -, -, r⟩ := hok bounds hb l hl count h1 sm draws h2 gd h3 h4
  rw [h5] at e
  obtain rfl := Option.some.inj e
  exact r

/-- C64: every gene of every chromosome of a run of an `RCGA` is a number within its bounds, in binary64 arithmetic. Partial: the bounds are at most `2^1022` in absolute value, and those of BLX-α and
Gauss as in C61; C61 has the counterexamples. -/
theorem C64_real_partial (env : GaEnv Dbl K A S V) (bounds : List (GeneBounds Dbl)) (hb : ∀ b ∈ bounds, SaneBounds 1022 b) (h : UsesReals env bounds) (prev : GaState Dbl (FVec K) A V)
    (initial : List (Cand Dbl (FVec K))) (hu : UserParts env initial (LegalDoubles bounds)) : RunWithin env prev initial (LegalDoubles bounds) := by
  refine C64_run env prev initial _ hu ?_ ?_ ?_
  · intro k
    obtain ⟨fused, draws, h1, h2⟩ := h.generate k
    obtain ⟨c, h3, h4⟩ := C61_generate_partial fused bounds hb draws h1
    rw [h2] at h3
    obtain rfl := Option.some.inj h3
    exact h4
  · intro g k p q hp hq
    cases h.cross g k p q hp hq with
    | arithmetic fused k hk h =>
      obtain ⟨c1, c2, e, r⟩ := C61_arithmetic_partial fused k hk bounds hb _ _ hp hq
      rw [h] at e; obtain ⟨rfl, rfl⟩ := Prod.mk.inj (Option.some.inj e); exact r
    | wright fused less k1 k2 hk1 hk2 h =>
      obtain ⟨c1, c2, e, r⟩ := C61_wright_partial fused less k1 k2 hk1 hk2 bounds hb _ _ hp hq
      rw [h] at e; obtain ⟨rfl, rfl⟩ := Prod.mk.inj (Option.some.inj e); exact r
    | blx fused alpha ka kb ha ha0 hak hka hkb hk hb' draws hd h =>
      obtain ⟨c1, c2, e, r⟩ := C61_blx_partial fused alpha ka kb ha ha0 hak hka hkb hk draws hd bounds hb' _ _ hp hq
      rw [h] at e; obtain ⟨rfl, rfl⟩ := Prod.mk.inj (Option.some.inj e); exact r
    | sbx recip fused eq heq htiny pow hpow eta heta draws hd h =>
      obtain ⟨c1, c2, e, r⟩ := C61_sbx_partial recip fused eq heq htiny pow hpow eta heta draws hd bounds hb _ _ hp hq
      rw [h] at e; obtain ⟨rfl, rfl⟩ := Prod.mk.inj (Option.some.inj e); exact r
  · intro g k c hc
    cases h.mutate g k c hc with
    | uniform fused h => exact realMutReturns_legal (C61_uniform_partial fused) hb hc h
    | nonUniform recip fused pow hpow beta hbeta gen maxGen hg hmax h => exact realMutReturns_legal (C61_nonuniform_partial recip fused pow hpow beta hbeta gen maxGen hg hmax) hb hc h
    | gauss recip fused sigma hsigma hfin h => exact realMutReturns_legal (C61_gauss_partial recip fused sigma hsigma) (fun b hm => ⟨hb b hm, hfin b hm⟩) hc h
    | polynomial fused pow hpow eta heta h => exact realMutReturns_legal (C61_polynomial_partial fused pow hpow eta heta) hb hc h
    | boundary h =>
      refine realMutReturns_legal C61_boundary (fun b hm => ?_) hc h
      obtain ⟨lo, hi, rfl, h1, h2, h3, h4, h5⟩ := hb b hm
      have hle : (2 : ℚ) ^ (1022 : ℤ) ≤ 2 ^ (1024 : ℤ) := zpow_le_zpow_right₀ (by norm_num) (by norm_num)
      exact ⟨lo, hi, rfl, h1, h2, h3, h4.trans hle, h5.trans hle⟩
end

/-! ## Runs that meet the assumptions -/

theorem sampleDraws_zero_three : SampleDraws 4 2 false [0, 3] := by
  refine ⟨by decide, ?_⟩
  intro i n h
  have : firstLimit 0 ((4 : Nat) : Int) 2 false = 2 := by decide
  rw [this]
  match i, h with
  | 0, h => simp at h; subst h; decide
  | 1, h => simp at h; subst h; decide

/-- The two chromosomes, as candidates that have not been evaluated. -/
def toChildren {G : Type} (p q : Cand G (FVec ℤ)) (r : Option (List G × List G)) : Cand G (FVec ℤ) × Cand G (FVec ℤ) :=
  match r with
  | some r => (⟨r.1, [], false⟩, ⟨r.2, [], false⟩)
  | none => (p, q)

/-- A run of a `PermutationGA` with the cycle crossover and the swap mutation. -/
def demoPerm : GaEnv Nat ℤ Unit Unit (FVec ℤ) :=
  { demoEnv Nat exactEq (fun x => [.fin (x.getD 0 0), .fin (- x.getD 1 0)]) (fun k => generatePermutation 4 (fun i => i * k)) (fun _ _ c => (swap2 true false [0, 3] c.chrom).getD [])
      (fun l => l) true 1 5 with
    crossMethod := fun _ _ p q => toChildren p q (permCycle p.chrom q.chrom) }

theorem demoPerm_uses : UsesPermutations demoPerm 4 where
  generate := fun k => ⟨fun i => i * k, rfl⟩
  cross := fun g k p q hp hq => by
    obtain ⟨hp1, hp2⟩ := (isPermOf_iff 4 _).mp hp
    obtain ⟨hq1, hq2⟩ := (isPermOf_iff 4 _).mp hq
    obtain ⟨-, d1, d2, he, -⟩ := C15_overloads_and_operator p.chrom q.chrom hp1 hq1 (hp2.trans hq2.symm)
    refine .cycle ?_
    show _ = some ((toChildren p q (permCycle p.chrom q.chrom)).1.chrom, (toChildren p q (permCycle p.chrom q.chrom)).2.chrom)
    rw [he]; rfl
  mutate := fun g k c hc => by
    have hl : c.chrom.length = 4 := ((isPermOf_iff 4 _).mp hc).2
    have hd : 2 ≤ c.chrom.length → SampleDraws c.chrom.length 2 false [0, 3] := fun _ => hl ▸ sampleDraws_zero_three
    refine .swap2 true false [0, 3] hd ?_
    obtain ⟨x, h1, -⟩ := C19_swap2 c.chrom true false [0, 3] hd
    show _ = some ((swap2 true false [0, 3] c.chrom).getD [])
    rw [h1]; rfl

example : RunWithin demoPerm (demoPrev Nat) [] (IsPermOf 4) :=
  C64_permutation demoPerm 4 demoPerm_uses _ _ ⟨by simp, fun r h => (by cases h), fun l c h => h⟩
example : (gaSolve demoPerm (demoPrev Nat) []).map (fun st => (st.pop.map (·.chrom), st.gen, st.calls.length)) = some ([[1, 2, 3, 0], [3, 0, 2, 1]], 4, 5) := by decide +kernel

/-- A run of a `BinaryGA` with the two point crossover and the flip mutation. -/
def demoBits : GaEnv Nat ℤ Unit Unit (FVec ℤ) :=
  { demoEnv Nat exactEq (fun x => [.fin (x.getD 0 0), .fin (- x.getD 1 0)]) (fun k => ((generateBinary 4 1#64 [BitVec.ofNat 64 (5 * k)]).getD []).map Bool.toNat)
      (fun _ _ c => (flip 2 false [0, 3] c.chrom).getD []) (fun l => l) false 0 3 with
    crossMethod := fun _ _ p q => toChildren p q (opTwoPoint p.chrom q.chrom (Fin.ofNat _ 1) (Fin.ofNat _ 3)) }

theorem demoBits_uses : UsesBits demoBits 4 where
  generate := fun k => by
    obtain ⟨x, h, -⟩ := C51_binary 4 [BitVec.ofNat 64 (5 * k)] (by simp)
    refine ⟨1#64, [BitVec.ofNat 64 (5 * k)], x, h, ?_⟩
    show ((generateBinary 4 1#64 [BitVec.ofNat 64 (5 * k)]).getD []).map Bool.toNat = _
    rw [h]; rfl
  cross := fun g k p q hp hq => by
    obtain ⟨-, h2, -⟩ := C12_operators p.chrom q.chrom (hp.1.trans hq.1.symm)
    obtain ⟨X, d1, d2, he, -⟩ := h2 (Fin.ofNat _ 1) (Fin.ofNat _ 3)
    refine .twoPoint (Fin.ofNat _ 1) (Fin.ofNat _ 3) ?_
    show _ = some ((toChildren p q (opTwoPoint p.chrom q.chrom (Fin.ofNat _ 1) (Fin.ofNat _ 3))).1.chrom, (toChildren p q (opTwoPoint p.chrom q.chrom (Fin.ofNat _ 1) (Fin.ofNat _ 3))).2.chrom)
    rw [he]; rfl
  mutate := fun g k c hc => by
    refine ⟨2, false, [0, 3], by decide, sampleDraws_zero_three, ?_⟩
    obtain ⟨x, loci, e, -⟩ := C19_flip c.chrom (fun g hx => by rcases hc.2 g hx with h | h <;> omega) 2 (by rw [hc.1]; decide) false [0, 3] (by rw [hc.1]; exact sampleDraws_zero_three)
    show _ = some ((flip 2 false [0, 3] c.chrom).getD [])
    rw [e]; rfl

example : RunWithin demoBits (demoPrev Nat) [⟨[1, 1, 0, 0], [], false⟩] (IsBitString 4) :=
  C64_binary demoBits 4 demoBits_uses _ _ ⟨by simp [IsBitString], fun r h => (by cases h), fun l c h => h⟩
example : (gaSolve demoBits (demoPrev Nat) [⟨[1, 1, 0, 0], [], false⟩]).map (fun st => (st.pop.map (·.chrom), st.gen, st.calls.length)) = some ([[1, 1, 0, 0], [1, 0, 1, 0]], 2, 7) := by
  decide +kernel

/-- The bounds of the next run. -/
def demoBounds : List (Int × Int) := [(0, 9), (-5, 5), (2, 3), (0, 1)]

/-- A run of an `IntegerGA` with the single point crossover and the uniform mutation: the draws for a gene are its lower bound and its upper bound. -/
def demoInts : GaEnv Int ℤ Unit Unit (FVec ℤ) :=
  { demoEnv Int exactEq demoFitness (fun k => (generateInteger demoBounds.length demoBounds (fun i => k + i)).getD [])
      (fun _ _ c => (intUniform 2 false [0, 3] [[0, 9], [0, 1]] c.chrom).getD []) (fun l => l) true 2 3 with
    crossMethod := fun _ _ p q => toChildren p q (opSinglePoint p.chrom q.chrom (Fin.ofNat _ 2)) }

theorem demoInts_uses : UsesIntegers demoInts demoBounds where
  generate := fun k => by
    obtain ⟨x, h, -⟩ := C51_integer demoBounds (by decide) (fun i => k + i)
    refine ⟨fun i => k + i, ?_⟩
    show _ = some ((generateInteger demoBounds.length demoBounds (fun i => k + i)).getD [])
    rw [h]; rfl
  cross := fun g k p q hp hq => by
    obtain ⟨h1, -⟩ := C12_operators p.chrom q.chrom (hp.1.trans hq.1.symm)
    obtain ⟨X, d1, d2, he, -⟩ := h1 (Fin.ofNat _ 2)
    refine .singlePoint (Fin.ofNat _ 2) ?_
    show _ = some ((toChildren p q (opSinglePoint p.chrom q.chrom (Fin.ofNat _ 2))).1.chrom, (toChildren p q (opSinglePoint p.chrom q.chrom (Fin.ofNat _ 2))).2.chrom)
    rw [he]; rfl
  mutate := fun g k c hc => by
    have hl : c.chrom.length = 4 := hc.1
    have hs : sampleIndices 4 2 false [0, 3] = some [0, 3] := by decide
    refine ⟨2, false, [0, 3], [[0, 9], [0, 1]], by decide, sampleDraws_zero_three, ?_, ?_⟩
    · intro idxs i ds b e hm hb
      have e' : some idxs = some [0, 3] := e.symm.trans hs
      obtain rfl := Option.some.inj e'
      simp [demoBounds] at hm hb
      rcases hm with ⟨rfl, rfl⟩ | ⟨rfl, rfl⟩
      · simp at hb; subst hb; decide
      · simp at hb; subst hb; decide
    · obtain ⟨x, e⟩ := C19_int_uniform_returns_partial c.chrom (by omega) 2 (by omega) false [0, 3] (by rw [hl]; exact sampleDraws_zero_three) [[0, 9], [0, 1]] rfl (by
        intro idxs i ds e hm
        rw [hl] at e
        have e' : some idxs = some [0, 3] := e.symm.trans hs
        obtain rfl := Option.some.inj e'
        simp at hm
        rcases hm with ⟨rfl, rfl⟩ | ⟨rfl, rfl⟩
        · by_cases h : c.chrom[0]? = some 0
          · exact ⟨9, by simp, by rw [h]; decide⟩
          · exact ⟨0, by simp, h⟩
        · by_cases h : c.chrom[3]? = some 0
          · exact ⟨1, by simp, by rw [h]; decide⟩
          · exact ⟨0, by simp, h⟩)
      show _ = some ((intUniform 2 false [0, 3] [[0, 9], [0, 1]] c.chrom).getD [])
      rw [e]; rfl

example : RunWithin demoInts (demoPrev Int) [] (IntsWithin demoBounds) :=
  C64_integer demoInts demoBounds (by decide) demoInts_uses _ _ ⟨by simp, fun r h => (by cases h), fun l c h => h⟩
example : (gaSolve demoInts (demoPrev Int) []).map (fun st => (st.pop.map (·.chrom), st.gen, st.calls.length)) = some ([[9, -3, 3, 0], [9, -2, 2, 1]], 2, 7) := by
  decide +kernel

/-- The bounds of the next run: `[-1, 3]` for every gene. -/
def demoRealBounds : List (GeneBounds Dbl) := List.replicate 4 ⟨.fin (-1), .fin 3⟩

theorem demoRealBounds_sane : ∀ b ∈ demoRealBounds, SaneBounds 1022 b := by
  intro b hb
  obtain rfl := List.eq_of_mem_replicate hb
  have h : (4 : ℚ) ≤ 2 ^ (1022 : ℤ) := by
    calc (4 : ℚ) = 2 ^ (2 : ℤ) := by norm_num
      _ ≤ 2 ^ (1022 : ℤ) := zpow_le_zpow_right₀ (by norm_num) (by norm_num)
  refine ⟨-1, 3, rfl, by simpa using isDouble_int (n := -1) (by norm_num), by simpa using isDouble_int (n := 3) (by norm_num), by norm_num, ?_, ?_⟩
  · exact le_trans (by norm_num) h
  · exact le_trans (by norm_num) h

/-- A run of an `RCGA` with the arithmetic crossover and the boundary mutation. -/
def demoReals : GaEnv Dbl ℤ Unit Unit (FVec ℤ) :=
  { demoEnv Dbl exactEq (fun x => [.fin (if (x.getD 0 .nan).lt (.fin 0) then 0 else 1), .fin (if (x.getD 1 .nan).lt (.fin 2) then 0 else 1)])
      (fun k => (generateRealD false demoRealBounds.length demoRealBounds (fun i => (i + k) * 2 ^ 49 % 2 ^ 53)).getD [])
      (fun g k c => (realMutateD realBoundaryGeneD demoRealBounds 2 false [0, 3] [g == k, false] c.chrom).getD []) (fun l => l) false 0 3 with
    crossMethod := fun _ _ p q => toChildren p q (arithmeticCrossoverD (some true) (2 ^ 50) demoRealBounds p.chrom q.chrom) }

theorem demoReals_uses : UsesReals demoReals demoRealBounds where
  generate := fun k => by
    have hd : ∀ i, (i + k) * 2 ^ 49 % 2 ^ 53 < 2 ^ 53 := fun i => Nat.mod_lt _ (by norm_num)
    obtain ⟨x, h, -⟩ := C61_generate_partial false demoRealBounds demoRealBounds_sane (fun i => (i + k) * 2 ^ 49 % 2 ^ 53) hd
    refine ⟨false, fun i => (i + k) * 2 ^ 49 % 2 ^ 53, hd, ?_⟩
    show _ = some ((generateRealD false demoRealBounds.length demoRealBounds (fun i => (i + k) * 2 ^ 49 % 2 ^ 53)).getD [])
    rw [h]; rfl
  cross := fun g k p q hp hq => by
    obtain ⟨d1, d2, he, -⟩ := C61_arithmetic_partial (some true) (2 ^ 50) (by norm_num) demoRealBounds demoRealBounds_sane p.chrom q.chrom hp hq
    refine .arithmetic (some true) (2 ^ 50) (by norm_num) ?_
    show _ = some ((toChildren p q (arithmeticCrossoverD (some true) (2 ^ 50) demoRealBounds p.chrom q.chrom)).1.chrom,
      (toChildren p q (arithmeticCrossoverD (some true) (2 ^ 50) demoRealBounds p.chrom q.chrom)).2.chrom)
    rw [he]; rfl
  mutate := fun g k c hc => by
    have hl : c.chrom.length = 4 := hc.1
    have hsane : ∀ b ∈ demoRealBounds, SaneBounds 1024 b := by
      intro b hm
      obtain ⟨lo, hi, rfl, h1, h2, h3, h4, h5⟩ := demoRealBounds_sane b hm
      have hle : (2 : ℚ) ^ (1022 : ℤ) ≤ 2 ^ (1024 : ℤ) := zpow_le_zpow_right₀ (by norm_num) (by norm_num)
      exact ⟨lo, hi, rfl, h1, h2, h3, h4.trans hle, h5.trans hle⟩
    obtain ⟨x, loci, e, -⟩ := C61_boundary demoRealBounds hsane c.chrom hc 2 (by omega) false [0, 3] (by rw [hl]; exact sampleDraws_zero_three) [g == k, false] rfl (fun _ _ => trivial)
    refine .boundary ⟨2, false, [0, 3], [g == k, false], by omega, by rw [hl]; exact sampleDraws_zero_three, rfl, fun _ _ => trivial, ?_⟩
    show _ = some ((realMutateD realBoundaryGeneD demoRealBounds 2 false [0, 3] [g == k, false] c.chrom).getD [])
    rw [e]; rfl

example : RunWithin demoReals (demoPrev Dbl) [] (LegalDoubles demoRealBounds) :=
  C64_real_partial demoReals demoRealBounds demoRealBounds_sane demoReals_uses _ _ ⟨by simp, fun r h => (by cases h), fun l c h => h⟩
example : (gaSolve demoReals (demoPrev Dbl) []).map (fun st => (st.pop.map (·.chrom), st.gen, st.calls.length)) =
    some ([[.fin 3, .fin (-57 / 128), .fin (-25 / 128), .fin 3], [.fin 3, .fin (-39 / 128), .fin (-7 / 128), .fin 3]], 2, 7) := by decide +kernel

end Gapp.Props
