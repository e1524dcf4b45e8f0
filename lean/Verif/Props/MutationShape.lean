import Mathlib.Probability.Distributions.Gaussian.Real
import Mathlib.Tactic.FieldSimp
import Verif.Model.MutationParams
import Verif.Spec.MutationShape
import Verif.Proofs.Draws
import Verif.Props.Mutation

/-!
# C81: the values of mutated genes
-/

namespace Gapp.Props

open Gapp.Model Gapp.Spec Gapp.Proofs.Draws MeasureTheory

/-! ### The parameters of the mutations of real genes -/

theorem realMutate_closer {β : Type} (near far : GeneBounds ℝ → β → ℝ → ℝ) (ok : β → Prop)
    (hgene : ∀ b d old, ok d → b.lower ≤ old → old ≤ b.upper → |near b d old - old| ≤ |far b d old - old|)
    (bounds : List (GeneBounds ℝ)) (l : List ℝ) (hbl : bounds.length = l.length) (hn : l.length < 65536)
    (hl : ∀ (i : Nat) (b : GeneBounds ℝ) (g : ℝ), bounds[i]? = some b → l[i]? = some g → b.lower ≤ g ∧ g ≤ b.upper)
    (count : Nat) (hc : count ≤ l.length) (selectMany : Bool) (draws : List Int) (hd : SampleDraws l.length count selectMany draws)
    (geneDraws : List β) (hgl : geneDraws.length = count) (hgd : ∀ d ∈ geneDraws, ok d) :
    ∃ c c', realMutate near bounds count selectMany draws geneDraws l = some c ∧ realMutate far bounds count selectMany draws geneDraws l = some c' ∧ CloserGenes l c c' := by
  obtain ⟨idxs, h1, h2, h3, h4⟩ := sampleIndices_ok hc hd
  have hfst : (idxs.zip geneDraws).map Prod.fst = idxs := by
    rw [List.map_fst_zip]; omega
  have hzip : ∀ i d, (i, d) ∈ idxs.zip geneDraws → i < l.length ∧ d ∈ geneDraws := by
    intro i d hm
    exact ⟨h3 i (List.of_mem_zip hm).1, (List.of_mem_zip hm).2⟩
  have tot : ∀ gene : GeneBounds ℝ → β → ℝ → ℝ, ∃ c, updateAt (fun idx d old => do
      let b ← bounds[idx]?
      return gene b d old) (idxs.zip geneDraws) l = some c := by
    intro gene
    refine updateAt_total (idxs.zip geneDraws) l (by intro p hp; exact (hzip p.1 p.2 hp).1) ?_
    intro i d g hm
    have hi := (hzip i d hm).1
    rw [List.getElem?_eq_getElem (by omega)]; rfl
  obtain ⟨c, hcc⟩ := tot near
  obtain ⟨c', hcc'⟩ := tot far
  refine ⟨c, c', ?_, ?_, ?_⟩
  · simp only [realMutate, h1, Option.bind_eq_bind, Option.bind_some, h2, hgl, if_true]; exact hcc
  · simp only [realMutate, h1, Option.bind_eq_bind, Option.bind_some, h2, hgl, if_true]; exact hcc'
  have p1 := (updateAt_partial (fun _ _ => True) _ l c hcc (by simp) (by simp)).1
  have p2 := (updateAt_partial (fun _ _ => True) _ l c' hcc' (by simp) (by simp)).1
  rw [hfst] at p1 p2
  refine ⟨p1.1, p2.1, ?_⟩
  intro i o a b ho ha hb
  by_cases hi : i ∈ idxs
  · have hi' : i ∈ (idxs.zip geneDraws).map Prod.fst := by rw [hfst]; exact hi
    obtain ⟨⟨i', d⟩, hm, rfl⟩ := List.mem_map.mp hi'
    have hnd : ((idxs.zip geneDraws).map Prod.fst).Nodup := by rw [hfst]; exact h4 hn
    obtain ⟨g, g', e1, e2, e3⟩ := updateAt_nodup _ l c hcc hnd i' d hm
    obtain ⟨k, k', f1, f2, f3⟩ := updateAt_nodup _ l c' hcc' hnd i' d hm
    have hlt : i' < bounds.length := by have := (hzip i' d hm).1; omega
    have hbd : bounds[i']? = some bounds[i'] := List.getElem?_eq_getElem hlt
    simp only [hbd, Option.bind_eq_bind, Option.bind_some, Option.pure_def, Option.some.injEq] at e2 f2
    simp only at ho ha hb
    rw [ho] at e1 f1
    cases e1
    cases f1
    rw [ha] at e3
    rw [hb] at f3
    cases e3
    cases f3
    rw [← e2, ← f2]
    have hbo := hl i' _ o hbd ho
    exact hgene _ d o (hgd d (hzip i' d hm).2) hbo.1 hbo.2
  · have e1 := p1.2 i hi
    have e2 := p2.2 i hi
    rw [ha, ho] at e1
    rw [hb, ho] at e2
    cases e1
    cases e2
    simp

theorem clamp_closer (lo hi old d d' : ℝ) (h1 : lo ≤ old) (h2 : old ≤ hi) (hd : (0 ≤ d ∧ d ≤ d') ∨ (d' ≤ d ∧ d ≤ 0)) :
    |stdClamp (old + d) lo hi - old| ≤ |stdClamp (old + d') lo hi - old| := by
  unfold stdClamp
  rcases hd with ⟨h3, h4⟩ | ⟨h3, h4⟩
  · rw [if_neg (by linarith), if_neg (by linarith : ¬ old + d' < lo)]
    apply abs_le_abs_of_nonneg <;> split <;> try split
    all_goals linarith
  · rw [if_neg (by linarith : ¬ hi < old + d), if_neg (by linarith : ¬ hi < old + d')]
    apply abs_le_abs_of_nonpos <;> split <;> try split
    all_goals linarith

/-- The statement that the second of two operators changes no gene more than the first one, when they use the same random numbers. -/
def ChangesLess {β : Type} (ok : β → Prop) (first second : GeneBounds ℝ → β → ℝ → ℝ) : Prop :=
  ∀ (bounds : List (GeneBounds ℝ)) (l : List ℝ), bounds.length = l.length → l.length < 65536 →
    (∀ (i : Nat) (b : GeneBounds ℝ) (g : ℝ), bounds[i]? = some b → l[i]? = some g → b.lower ≤ g ∧ g ≤ b.upper) →
    ∀ (count : Nat), count ≤ l.length → ∀ (selectMany : Bool) (draws : List Int), SampleDraws l.length count selectMany draws →
    ∀ (geneDraws : List β), geneDraws.length = count → (∀ d ∈ geneDraws, ok d) →
    ∃ c c', realMutate second bounds count selectMany draws geneDraws l = some c ∧ realMutate first bounds count selectMany draws geneDraws l = some c' ∧ CloserGenes l c c'

/-- **C81 (sigma of the Gauss mutation).** With a larger sigma, the mutated genes are closer to the original ones. -/
theorem C81_gauss_sigma (sigma sigma' : ℝ) (h0 : 0 < sigma) (h : sigma ≤ sigma') : ChangesLess (fun _ => True) (realGaussGene sigma) (realGaussGene sigma') := by
  intro bounds l hbl hn hl count hc sm draws hd gd hgl hgd
  refine realMutate_closer _ _ _ ?_ bounds l hbl hn hl count hc sm draws hd gd hgl hgd
  intro b z old _ hlo hhi
  unfold realGaussGene
  have hw : 0 ≤ b.upper - b.lower := by linarith
  have hsd : (b.upper - b.lower) / sigma' ≤ (b.upper - b.lower) / sigma := div_le_div_of_nonneg_left hw h0 h
  have hsd0 : 0 ≤ (b.upper - b.lower) / sigma' := div_nonneg hw (by linarith)
  apply clamp_closer _ _ _ _ _ hlo hhi
  rcases le_total 0 z with hz | hz
  · left
    constructor <;> nlinarith
  · right
    constructor <;> nlinarith

/-- **C81 (eta of the polynomial mutation).** With a larger eta, the mutated genes are closer to the original ones. -/
theorem C81_polynomial_eta (eta eta' : ℝ) (h0 : 0 ≤ eta) (h : eta ≤ eta') : ChangesLess (fun alpha => 0 ≤ alpha ∧ alpha < 1) (polynomialGene eta) (polynomialGene eta') := by
  intro bounds l hbl hn hl count hc sm draws hd gd hgl hgd
  refine realMutate_closer _ _ _ ?_ bounds l hbl hn hl count hc sm draws hd gd hgl hgd
  intro b alpha old ⟨ha0, ha1⟩ hlo hhi
  have he : 1 / (1 + eta') ≤ 1 / (1 + eta) := one_div_le_one_div_of_le (by linarith) (by linarith)
  have he0 : 0 ≤ 1 / (1 + eta') := one_div_nonneg.mpr (by linarith)
  have key : ∀ x : ℝ, 0 ≤ x → x ≤ 1 → x ^ (1 / (1 + eta)) ≤ x ^ (1 / (1 + eta')) ∧ x ^ (1 / (1 + eta')) ≤ 1 := fun x hx0 hx1 =>
    ⟨Real.rpow_le_rpow_of_exponent_ge' hx0 hx1 he0 he, Real.rpow_le_one hx0 hx1 he0⟩
  unfold polynomialGene polynomialPower realPolynomialGene
  by_cases ha : alpha ≤ 1 / 2
  · simp only [ha, if_true]
    obtain ⟨k1, k2⟩ := key (2 * alpha) (by linarith) (by linarith)
    apply clamp_closer _ _ _ _ _ hlo hhi
    right
    constructor <;> nlinarith
  · simp only [ha, if_false]
    obtain ⟨k1, k2⟩ := key (2 - 2 * alpha) (by linarith) (by linarith)
    apply clamp_closer _ _ _ _ _ hlo hhi
    left
    constructor <;> nlinarith

theorem nonUniform_closer (beta beta' : ℝ) (gen gen' maxGen : Nat)
    (he : (1 - (gen' : ℝ) / maxGen) ^ beta' ≤ (1 - (gen : ℝ) / maxGen) ^ beta) (he0 : 0 ≤ (1 - (gen' : ℝ) / maxGen) ^ beta') :
    ChangesLess (fun d => 0 ≤ d.1 ∧ d.1 < 1) (nonUniformGene beta gen maxGen) (nonUniformGene beta' gen' maxGen) := by
  intro bounds l hbl hn hl count hc sm draws hd gd hgl hgd
  refine realMutate_closer _ _ _ ?_ bounds l hbl hn hl count hc sm draws hd gd hgl hgd
  intro b d old ⟨hr0, hr1⟩ hlo hhi
  have k1 := Real.rpow_le_rpow_of_exponent_ge' hr0 hr1.le he0 he
  have k2 := Real.rpow_le_one hr0 hr1.le he0
  unfold nonUniformGene nonUniformMultiplier realNonUniformGene
  apply clamp_closer _ _ _ _ _ hlo hhi
  by_cases hd2 : d.2 = true
  · simp only [hd2, if_true]
    right
    constructor <;> nlinarith
  · simp only [hd2, Bool.false_eq_true, if_false]
    left
    constructor <;> nlinarith

/-- **C81 (beta of the non-uniform mutation).** With a larger beta, the mutated genes are closer to the original ones. -/
theorem C81_nonuniform_beta (beta beta' : ℝ) (h : beta ≤ beta') (gen maxGen : Nat) (hg : gen < maxGen) :
    ChangesLess (fun d => 0 ≤ d.1 ∧ d.1 < 1) (nonUniformGene beta gen maxGen) (nonUniformGene beta' gen maxGen) := by
  have hm : (0 : ℝ) < maxGen := by exact_mod_cast (by omega : 0 < maxGen)
  have h1 : (gen : ℝ) / maxGen < 1 := by rw [div_lt_one hm]; exact_mod_cast hg
  have h2 : (0 : ℝ) ≤ (gen : ℝ) / maxGen := by positivity
  exact nonUniform_closer beta beta' gen gen maxGen (Real.rpow_le_rpow_of_exponent_ge (by linarith) (by linarith) h) (Real.rpow_nonneg (by linarith) _)

/-- **C81 (non-uniform mutation, over the generations).** In later generations, the mutated genes are closer to the original ones. -/
theorem C81_nonuniform_generation (beta : ℝ) (h0 : 0 ≤ beta) (gen gen' maxGen : Nat) (h : gen ≤ gen') (hg : gen' < maxGen) :
    ChangesLess (fun d => 0 ≤ d.1 ∧ d.1 < 1) (nonUniformGene beta gen maxGen) (nonUniformGene beta gen' maxGen) := by
  have hm : (0 : ℝ) < maxGen := by exact_mod_cast (by omega : 0 < maxGen)
  have h1 : (gen' : ℝ) / maxGen < 1 := by rw [div_lt_one hm]; exact_mod_cast hg
  have h2 : (gen : ℝ) / maxGen ≤ (gen' : ℝ) / maxGen := div_le_div_of_nonneg_right (by exact_mod_cast h) hm.le
  exact nonUniform_closer beta beta gen gen' maxGen (Real.rpow_le_rpow (by linarith) (by linarith) h0) (Real.rpow_nonneg (by linarith) _)

example : ∃ c c', realMutate (realGaussGene (6 : ℝ)) [⟨0, 1⟩, ⟨0, 1⟩, ⟨0, 1⟩] 2 false [0, 1] [1, -1] [1 / 2, 1 / 2, 1 / 2] = some c ∧
    realMutate (realGaussGene 3) [⟨0, 1⟩, ⟨0, 1⟩, ⟨0, 1⟩] 2 false [0, 1] [1, -1] [1 / 2, 1 / 2, 1 / 2] = some c' ∧ CloserGenes [1 / 2, 1 / 2, 1 / 2] c c' := by
  refine C81_gauss_sigma 3 6 (by norm_num) (by norm_num) [⟨0, 1⟩, ⟨0, 1⟩, ⟨0, 1⟩] [1 / 2, 1 / 2, 1 / 2] rfl (by simp) ?_ 2 (by simp) false [0, 1] ?_ [1, -1] rfl (by simp)
  · intro i b g hb hg
    have hi : i < 3 := (List.getElem?_eq_some_iff.mp hb).1
    interval_cases i <;> simp at hb hg <;> subst hb <;> subst hg <;> constructor <;> norm_num
  · refine ⟨by decide, ?_⟩
    intro i n h
    have : firstLimit 0 (3 : Nat) 2 false = 1 := by decide
    show 0 ≤ n ∧ n ≤ firstLimit 0 (3 : Nat) 2 false + i
    rw [this]
    match i, h with
    | 0, h => simp at h; omega
    | 1, h => simp at h; omega

/-! ### Distributions -/

theorem chanceOf_const (event : ℝ → Prop) (p : Prop) (h : ∀ r, 0 ≤ r → r < 1 → (event r ↔ p)) : (p → chanceOf event = 1) ∧ (¬ p → chanceOf event = 0) := by
  constructor
  · intro hp
    have : {r : ℝ | 0 ≤ r ∧ r < 1 ∧ event r} = Set.Ico 0 1 := by
      ext r
      simp only [Set.mem_setOf_eq, Set.mem_Ico]
      constructor
      · rintro ⟨h1, h2, _⟩; exact ⟨h1, h2⟩
      · rintro ⟨h1, h2⟩; exact ⟨h1, h2, (h r h1 h2).mpr hp⟩
    simp [chanceOf, this]
  · intro hp
    have : {r : ℝ | 0 ≤ r ∧ r < 1 ∧ event r} = ∅ := by
      ext r
      simp only [Set.mem_setOf_eq, Set.mem_empty_iff_false, iff_false]
      rintro ⟨h1, h2, h3⟩; exact hp ((h r h1 h2).mp h3)
    simp [chanceOf, this]

theorem chanceOf_le (event : ℝ → Prop) (q : ℝ) (hq0 : 0 ≤ q) (hq1 : q ≤ 1) (h : ∀ r, 0 ≤ r → r < 1 → (event r ↔ r ≤ q)) : chanceOf event = q := by
  have h1 : (volume {r : ℝ | 0 ≤ r ∧ r < 1 ∧ event r}) = ENNReal.ofReal q := by
    apply le_antisymm
    · calc volume {r : ℝ | 0 ≤ r ∧ r < 1 ∧ event r} ≤ volume (Set.Icc 0 q) := measure_mono (by
            rintro r ⟨a, b, c⟩
            exact ⟨a, (h r a b).mp c⟩)
        _ = _ := by rw [Real.volume_Icc, sub_zero]
    · calc ENNReal.ofReal q = volume (Set.Ico 0 q) := by rw [Real.volume_Ico, sub_zero]
        _ ≤ _ := measure_mono (by
            rintro r ⟨a, b⟩
            exact ⟨a, by linarith, (h r a (by linarith)).mpr b.le⟩)
  rw [chanceOf, h1, ENNReal.toReal_ofReal hq0]

theorem chanceOf_ge (event : ℝ → Prop) (q : ℝ) (hq0 : 0 ≤ q) (hq1 : q ≤ 1) (h : ∀ r, 0 ≤ r → r < 1 → (event r ↔ q ≤ r)) : chanceOf event = 1 - q := by
  have : {r : ℝ | 0 ≤ r ∧ r < 1 ∧ event r} = Set.Ico q 1 := by
    ext r
    simp only [Set.mem_setOf_eq, Set.mem_Ico]
    constructor
    · rintro ⟨a, b, c⟩; exact ⟨(h r a b).mp c, b⟩
    · rintro ⟨a, b⟩; exact ⟨by linarith, b, (h r (by linarith) b).mpr a⟩
  rw [chanceOf, this, Real.volume_Ico, ENNReal.toReal_ofReal (by linarith)]

/-- **C81 (uniform mutation of real genes).** The new value is uniform on the interval of the bounds. -/
theorem C81_real_uniform (b : GeneBounds ℝ) (hb : b.lower < b.upper) (old y : ℝ) (h1 : b.lower ≤ y) (h2 : y ≤ b.upper) :
    chanceOf (fun r => realUniformGene b r old ≤ y) = (y - b.lower) / (b.upper - b.lower) := by
  have hw : 0 < b.upper - b.lower := by linarith
  apply chanceOf_le
  · exact div_nonneg (by linarith) hw.le
  · rw [div_le_one hw]; linarith
  · intro r _ _
    unfold realUniformGene
    rw [le_div_iff₀ hw]
    constructor <;> intro h <;> linarith

/-- **C81 (boundary mutation).** The new values are the two bounds, with the probability 1/2 each. -/
theorem C81_boundary (b : GeneBounds ℝ) (hb : b.lower < b.upper) (old : ℝ) :
    chanceOfBoth (fun _ d => realBoundaryGene b d old = b.lower) = 1 / 2 ∧ chanceOfBoth (fun _ d => realBoundaryGene b d old = b.upper) = 1 / 2 := by
  have t : ∀ p : Prop, p → chanceOf (fun _ => p) = 1 := fun p hp => (chanceOf_const _ p (fun _ _ _ => Iff.rfl)).1 hp
  have f : ∀ p : Prop, ¬ p → chanceOf (fun _ => p) = 0 := fun p hp => (chanceOf_const _ p (fun _ _ _ => Iff.rfl)).2 hp
  unfold chanceOfBoth
  simp only [realBoundaryGene, if_true, Bool.false_eq_true, if_false]
  rw [t _ trivial, f _ (ne_of_lt hb), f _ (ne_of_gt hb)]
  norm_num

/-- **C81 (Gauss mutation).** Below the upper bound, the new value has a normal distribution around the old one, with the documented standard deviation. -/
theorem C81_gauss (sigma : ℝ) (b : GeneBounds ℝ) (old y : ℝ) (h1 : b.lower ≤ y) (h2 : y < b.upper) :
    ProbabilityTheory.gaussianReal 0 1 {z | realGaussGene sigma b z old ≤ y} =
      ProbabilityTheory.gaussianReal old (Real.toNNReal (((b.upper - b.lower) / sigma) ^ 2)) (Set.Iic y) := by
  have e : {z : ℝ | realGaussGene sigma b z old ≤ y} = (fun z => (b.upper - b.lower) / sigma * z) ⁻¹' ((fun x => x + old) ⁻¹' Set.Iic y) := by
    ext z
    simp only [realGaussGene, stdClamp, Set.mem_setOf_eq, Set.mem_preimage, Set.mem_Iic]
    split
    · constructor
      · intro _; linarith
      · intro _; exact h1
    · split
      · constructor
        · intro h; linarith
        · intro h; linarith
      · constructor <;> intro h <;> linarith
  have m1 : MeasurableSet ((fun x => x + old) ⁻¹' Set.Iic y) := measurableSet_Iic.preimage (by fun_prop)
  rw [e, ← Measure.map_apply (by fun_prop) m1, ProbabilityTheory.gaussianReal_map_const_mul, ← Measure.map_apply (by fun_prop) measurableSet_Iic, ProbabilityTheory.gaussianReal_map_add_const]
  congr 2
  · ring
  · ext
    simp only [mul_one, NNReal.coe_mk, Real.coe_toNNReal _ (sq_nonneg _)]

/-- **C81 (uniform mutation of integers).** The new value is uniform on all values within the bounds other than the old one. `N` is the number of draws available to the loop. -/
theorem C81_integer_uniform (lo hi old : Int) (h1 : lo ≤ old) (h2 : old ≤ hi) (N : Nat) (v : Int) :
    (lo ≤ v ∧ v ≤ hi ∧ v ≠ old → ((hi - lo).toNat : ENNReal) * drawProb (uniformInt lo hi) N (fun draws => newIntGene old draws = some v) =
      drawProb (uniformInt lo hi) N (fun draws => (newIntGene old draws).isSome)) ∧
    (¬ (lo ≤ v ∧ v ≤ hi ∧ v ≠ old) → drawProb (uniformInt lo hi) N (fun draws => newIntGene old draws = some v) = 0) := by
  have hfin : (Set.Icc lo hi).Finite := Set.finite_Icc lo hi
  have hne : (Set.Icc lo hi).Nonempty := ⟨old, h1, h2⟩
  haveI : IsProbabilityMeasure (uniformInt lo hi) := ProbabilityTheory.isProbabilityMeasure_uniformOn hfin hne
  have hms : ∀ s : Set Int, uniformInt lo hi s = (Measure.count (Set.Icc lo hi))⁻¹ * Measure.count (Set.Icc lo hi ∩ s) := by
    intro s
    rw [uniformInt, ProbabilityTheory.uniformOn, ProbabilityTheory.cond_apply hfin.measurableSet]
  have e1 : drawProb (uniformInt lo hi) N (fun draws => newIntGene old draws = some v) =
      drawProb (uniformInt lo hi) N (fun draws => ∃ x, draws.find? (fun x => decide (x ≠ old)) = some x ∧ x = v) := by
    apply drawProb_congr
    intro l
    simp [newIntGene]
  have e2 : drawProb (uniformInt lo hi) N (fun draws => (newIntGene old draws).isSome = true) =
      drawProb (uniformInt lo hi) N (fun draws => ∃ x, draws.find? (fun x => decide (x ≠ old)) = some x ∧ True) := by
    apply drawProb_congr
    intro l
    simp only [newIntGene, Option.isSome_iff_exists, and_true]
  rw [e1, e2, drawProb_find _ _ _ MeasurableSet.of_discrete MeasurableSet.of_discrete, drawProb_find _ _ _ MeasurableSet.of_discrete MeasurableSet.of_discrete]
  constructor
  · rintro ⟨hv1, hv2, hv3⟩
    have s1 : Set.Icc lo hi ∩ {x : Int | decide (x ≠ old) = true ∧ x = v} = {v} := by
      ext x
      simp only [Set.mem_inter_iff, Set.mem_Icc, Set.mem_setOf_eq, decide_eq_true_eq, Set.mem_singleton_iff]
      constructor
      · rintro ⟨_, _, h⟩; exact h
      · rintro rfl; exact ⟨⟨hv1, hv2⟩, hv3, rfl⟩
    have s2 : Set.Icc lo hi ∩ {x : Int | decide (x ≠ old) = true ∧ True} = ((Finset.Icc lo hi).erase old : Set Int) := by
      ext x
      simp only [Set.mem_inter_iff, Set.mem_Icc, Set.mem_setOf_eq, decide_eq_true_eq, and_true, Finset.coe_erase, Finset.coe_Icc, Set.mem_diff, Set.mem_singleton_iff]
    have s3 : ((Finset.Icc lo hi).erase old).card = (hi - lo).toNat := by
      rw [Finset.card_erase_of_mem (Finset.mem_Icc.mpr ⟨h1, h2⟩), Int.card_Icc]
      omega
    rw [hms {x : Int | decide (x ≠ old) = true ∧ x = v}, hms {x : Int | decide (x ≠ old) = true ∧ True}, s1, s2, Measure.count_singleton, Measure.count_apply_finset, s3, ← mul_assoc]
    congr 1
    rw [mul_one, mul_comm]
  · intro hv
    have s1 : Set.Icc lo hi ∩ {x : Int | decide (x ≠ old) = true ∧ x = v} = ∅ := by
      ext x
      simp only [Set.mem_inter_iff, Set.mem_Icc, Set.mem_setOf_eq, decide_eq_true_eq, Set.mem_empty_iff_false, iff_false]
      rintro ⟨⟨h3, h4⟩, h5, rfl⟩
      exact hv ⟨h3, h4, h5⟩
    rw [hms {x : Int | decide (x ≠ old) = true ∧ x = v}, s1, measure_empty, mul_zero, zero_mul]

/-- The loop ends with the first draw that is not the old value, almost always after a few draws. -/
theorem C81_integer_ends (lo hi old : Int) (h1 : lo ≤ old) (h2 : old ≤ hi) (N : Nat) :
    drawProb (uniformInt lo hi) N (fun draws => newIntGene old draws = none) = ((hi - lo + 1).toNat : ENNReal)⁻¹ ^ N := by
  have hfin : (Set.Icc lo hi).Finite := Set.finite_Icc lo hi
  have hone : uniformInt lo hi {old} = ((hi - lo + 1).toNat : ENNReal)⁻¹ := by
    rw [uniformInt, ProbabilityTheory.uniformOn, ProbabilityTheory.cond_apply hfin.measurableSet,
      show Set.Icc lo hi ∩ {old} = {old} from Set.inter_eq_right.mpr (by rintro x rfl; exact ⟨h1, h2⟩), Measure.count_singleton, mul_one,
      show (Set.Icc lo hi) = ((Finset.Icc lo hi : Finset Int) : Set Int) by simp, Measure.count_apply_finset, Int.card_Icc, show hi + 1 - lo = hi - lo + 1 by ring]
  induction N with
  | zero => simp [drawProb, newIntGene]
  | succ N ih =>
    have hfun : ∀ x : Int, drawProb (uniformInt lo hi) N (fun draws => newIntGene old (x :: draws) = none) =
        Set.indicator {old} (fun _ => drawProb (uniformInt lo hi) N (fun draws => newIntGene old draws = none)) x := by
      intro x
      by_cases hx : x = old
      · subst hx
        rw [Set.indicator_of_mem (Set.mem_singleton x)]
        apply drawProb_congr
        intro l
        simp [newIntGene]
      · rw [Set.indicator_of_notMem (show x ∉ ({old} : Set Int) from hx), ← drawProb_false (μ := uniformInt lo hi) N]
        apply drawProb_congr
        intro l
        simp [newIntGene, hx]
    unfold drawProb
    simp only [hfun]
    rw [lintegral_indicator MeasurableSet.of_discrete, lintegral_const, Measure.restrict_apply MeasurableSet.univ, Set.univ_inter, hone, ih, pow_succ]

example : (3 : ENNReal) * drawProb (uniformInt 0 3) 10 (fun draws => newIntGene 1 draws = some 3) = drawProb (uniformInt 0 3) 10 (fun draws => (newIntGene 1 draws).isSome) ∧
    drawProb (uniformInt 0 3) 10 (fun draws => newIntGene 1 draws = none) = 4⁻¹ ^ 10 := by
  have h1 := (C81_integer_uniform 0 3 1 (by norm_num) (by norm_num) 10 3).1 (by norm_num)
  have h2 := C81_integer_ends 0 3 1 (by norm_num) (by norm_num) 10
  norm_num at h1 h2 ⊢
  exact ⟨h1, h2⟩

/-! ### The non-uniform mutation -/

theorem nonUniform_side (beta : ℝ) (gen maxGen : Nat) (hg : gen < maxGen) (b : GeneBounds ℝ) (old : ℝ) (h1 : b.lower < old) (h2 : old < b.upper) (r : ℝ) (hr0 : 0 ≤ r) (hr1 : r < 1) :
    nonUniformGene beta gen maxGen b (r, true) old < old ∧ old < nonUniformGene beta gen maxGen b (r, false) old := by
  have hm : (0 : ℝ) < maxGen := by exact_mod_cast (by omega : 0 < maxGen)
  have h3 : (gen : ℝ) / maxGen < 1 := by rw [div_lt_one hm]; exact_mod_cast hg
  have he : 0 < (1 - (gen : ℝ) / maxGen) ^ beta := Real.rpow_pos_of_pos (by linarith) _
  have k1 : r ^ (1 - (gen : ℝ) / maxGen) ^ beta < 1 := Real.rpow_lt_one hr0 hr1 he
  have k0 : 0 ≤ r ^ (1 - (gen : ℝ) / maxGen) ^ beta := Real.rpow_nonneg hr0 _
  unfold nonUniformGene nonUniformMultiplier realNonUniformGene stdClamp
  simp only [if_true, Bool.false_eq_true, if_false]
  generalize r ^ (1 - (gen : ℝ) / maxGen) ^ beta = q at *
  constructor
  · split
    · exact h1
    · split
      · nlinarith
      · nlinarith
  · split
    · nlinarith
    · split
      · exact h2
      · nlinarith

/-- **C81 (non-uniform mutation).** Whatever the parameters and the generation are, the new value is less than the old one with the probability 1/2, and greater than it with the probability 1/2. -/
theorem C81_nonuniform_sides (beta : ℝ) (gen maxGen : Nat) (hg : gen < maxGen) (b : GeneBounds ℝ) (old : ℝ) (h1 : b.lower < old) (h2 : old < b.upper) :
    chanceOfBoth (fun r d => nonUniformGene beta gen maxGen b (r, d) old < old) = 1 / 2 ∧ chanceOfBoth (fun r d => old < nonUniformGene beta gen maxGen b (r, d) old) = 1 / 2 := by
  have side := nonUniform_side beta gen maxGen hg b old h1 h2
  unfold chanceOfBoth
  rw [(chanceOf_const (fun r => nonUniformGene beta gen maxGen b (r, true) old < old) True (fun r h3 h4 => by simp [(side r h3 h4).1])).1 trivial,
    (chanceOf_const (fun r => nonUniformGene beta gen maxGen b (r, false) old < old) False (fun r h3 h4 => by simp [(side r h3 h4).2.le])).2 not_false,
    (chanceOf_const (fun r => old < nonUniformGene beta gen maxGen b (r, true) old) False (fun r h3 h4 => by simp [(side r h3 h4).1.le])).2 not_false,
    (chanceOf_const (fun r => old < nonUniformGene beta gen maxGen b (r, false) old) True (fun r h3 h4 => by simp [(side r h3 h4).2])).1 trivial]
  norm_num

/-- **C81 (non-uniform mutation with beta 0, partial).** With the parameter 0, and in the first generation, the new value is uniform between the lower bound and the old value, or uniform between the old value and
the upper bound, with the probability 1/2 each. -/
theorem C81_nonuniform_zero_partial (beta : ℝ) (gen maxGen : Nat) (hg : gen < maxGen) (h0 : beta = 0 ∨ gen = 0) (b : GeneBounds ℝ) (old : ℝ) (h1 : b.lower < old) (h2 : old < b.upper) (y : ℝ) :
    (b.lower ≤ y → y ≤ old → chanceOfBoth (fun r d => nonUniformGene beta gen maxGen b (r, d) old ≤ y) = 1 / 2 * ((y - b.lower) / (old - b.lower))) ∧
    (old ≤ y → y ≤ b.upper → chanceOfBoth (fun r d => nonUniformGene beta gen maxGen b (r, d) old ≤ y) = 1 / 2 + 1 / 2 * ((y - old) / (b.upper - old))) := by
  have side := nonUniform_side beta gen maxGen hg b old h1 h2
  have he : (1 - (gen : ℝ) / maxGen) ^ beta = 1 := by
    rcases h0 with rfl | rfl
    · exact Real.rpow_zero _
    · simp
  have hw1 : 0 < old - b.lower := by linarith
  have hw2 : 0 < b.upper - old := by linarith
  have vt : ∀ r, 0 ≤ r → r < 1 → nonUniformGene beta gen maxGen b (r, true) old = old + (b.lower - old) * (1 - r) := by
    intro r h3 h4
    unfold nonUniformGene nonUniformMultiplier realNonUniformGene stdClamp
    simp only [if_true, he, Real.rpow_one]
    rw [if_neg (by nlinarith), if_neg (by nlinarith)]
  have vf : ∀ r, 0 ≤ r → r < 1 → nonUniformGene beta gen maxGen b (r, false) old = old + (b.upper - old) * (1 - r) := by
    intro r h3 h4
    unfold nonUniformGene nonUniformMultiplier realNonUniformGene stdClamp
    simp only [Bool.false_eq_true, if_false, he, Real.rpow_one]
    rw [if_neg (by nlinarith), if_neg (by nlinarith)]
  unfold chanceOfBoth
  constructor
  · intro hy1 hy2
    rw [chanceOf_le (fun r => nonUniformGene beta gen maxGen b (r, true) old ≤ y) ((y - b.lower) / (old - b.lower)) (div_nonneg (by linarith) hw1.le) (by rw [div_le_one hw1]; linarith) (by
        intro r h3 h4
        simp only [vt r h3 h4]
        rw [le_div_iff₀ hw1]
        constructor <;> intro h <;> nlinarith),
      (chanceOf_const (fun r => nonUniformGene beta gen maxGen b (r, false) old ≤ y) False (fun r h3 h4 => by
        have := (side r h3 h4).2
        simp only [iff_false, not_le]; linarith)).2 not_false]
    ring
  · intro hy1 hy2
    rw [(chanceOf_const (fun r => nonUniformGene beta gen maxGen b (r, true) old ≤ y) True (fun r h3 h4 => by
        have := (side r h3 h4).1
        simp only [iff_true]; linarith)).1 trivial,
      chanceOf_ge (fun r => nonUniformGene beta gen maxGen b (r, false) old ≤ y) (1 - (y - old) / (b.upper - old)) (by
          have : (y - old) / (b.upper - old) ≤ 1 := by rw [div_le_one hw2]; linarith
          linarith) (by
          have : 0 ≤ (y - old) / (b.upper - old) := div_nonneg (by linarith) hw2.le
          linarith) (by
        intro r h3 h4
        simp only [vf r h3 h4]
        have e : (1 - (y - old) / (b.upper - old) ≤ r) ↔ (1 - r ≤ (y - old) / (b.upper - old)) := by constructor <;> intro h <;> linarith
        rw [e, le_div_iff₀ hw2]
        constructor <;> intro h <;> nlinarith)]
    ring

/-- **C81 (non-uniform mutation, violated).** With the parameter 0 the distribution is not uniform: with the bounds 0 and 1, the value 1/4 is changed to a smaller one with the probability 1/2. -/
theorem C81_nonuniform_zero_violated (gen maxGen : Nat) (hg : gen < maxGen) :
    chanceOfBoth (fun r d => nonUniformGene 0 gen maxGen ⟨0, 1⟩ (r, d) (1 / 4) ≤ 1 / 4) = 1 / 2 ∧
    chanceOf (fun r => realUniformGene (⟨0, 1⟩ : GeneBounds ℝ) r (1 / 4) ≤ 1 / 4) = 1 / 4 := by
  constructor
  · have := (C81_nonuniform_zero_partial 0 gen maxGen hg (Or.inl rfl) ⟨0, 1⟩ (1 / 4) (by norm_num) (by norm_num) (1 / 4)).1 (by norm_num) (by norm_num)
    rw [this]
    norm_num
  · rw [C81_real_uniform ⟨0, 1⟩ (by norm_num) (1 / 4) (1 / 4) (by norm_num) (by norm_num)]
    norm_num

end Gapp.Props
