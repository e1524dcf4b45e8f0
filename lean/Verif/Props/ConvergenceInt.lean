import Mathlib.MeasureTheory.Measure.GiryMonad
import Verif.Spec.ConvergenceInt
import Verif.Props.Convergence
/-!
# C85 for integer genes
-/

namespace Gapp.Props
open Gapp.Model Gapp.Spec Gapp.Proofs.Convergence Gapp.Proofs.Draws MeasureTheory Filter

/-- The gene that the loop of `Uniform` returns only depends on the first draw, and on the first one after it that is different from it. -/
theorem newIntGene_two (old v w : Int) (rest : List Int) (hw : rest.find? (fun x => decide (x ≠ v)) = some w) : newIntGene old (v :: rest) = newIntGene old [v, w] := by
  unfold newIntGene
  have hwv : w ≠ v := by simpa using List.find?_some hw
  by_cases h : v = old
  · subst h
    simp only [List.find?_cons, ne_eq, not_true_eq_false, decide_false, hwv, not_false_eq_true, decide_true]
    simpa using hw
  · simp [List.find?_cons, h]

theorem forall2_finite {α β : Type} (R : α → β → Prop) (hR : ∀ a, {b | R a b}.Finite) : ∀ l, {vs | List.Forall₂ R l vs}.Finite := by
  intro l
  induction l with
  | nil => exact (Set.finite_singleton []).subset (fun vs h => by cases h; rfl)
  | cons a l ih =>
    refine ((hR a).image2 List.cons ih).subset ?_
    intro vs h
    cases h with
    | cons h1 h2 => exact ⟨_, h1, _, h2, rfl⟩

theorem forall2_exists {α β : Type} (R : α → β → Prop) : ∀ l : List α, (∀ a ∈ l, ∃ b, R a b) → ∃ vs, List.Forall₂ R l vs := by
  intro l
  induction l with
  | nil => intro _; exact ⟨[], .nil⟩
  | cons a l ih =>
    intro hR
    obtain ⟨b, hb⟩ := hR a (by simp)
    obtain ⟨vs, hvs⟩ := ih (fun a ha => hR a (by simp [ha]))
    exact ⟨b :: vs, .cons hb hvs⟩

theorem geneValues_finite (bounds : List (Int × Int)) (i : Nat) : {ds | GeneValues bounds i ds}.Finite := by
  unfold GeneValues
  cases bounds[i]? with
  | none => exact (Set.finite_singleton []).subset (fun ds h => h)
  | some b =>
    refine ((Set.finite_Icc b.1 b.2).image2 (fun v w => [v, w]) (Set.finite_Icc b.1 b.2)).subset ?_
    rintro ds ⟨v, w, rfl, -, hv, hw⟩
    exact ⟨v, hv, w, hw, rfl⟩

theorem exists_other (b : Int × Int) (hb : b.1 < b.2) (v : Int) : ∃ w, v ≠ w ∧ b.1 ≤ w ∧ w ≤ b.2 := by
  by_cases h : v = b.1
  · exact ⟨b.2, by omega, by omega, le_rfl⟩
  · exact ⟨b.1, h, le_rfl, by omega⟩

theorem geneValues_exists (bounds : List (Int × Int)) (hb : ∀ b ∈ bounds, b.1 < b.2) (i : Nat) : ∃ ds, GeneValues bounds i ds := by
  unfold GeneValues
  cases h : bounds[i]? with
  | none => exact ⟨[], rfl⟩
  | some b =>
    have := hb b (List.mem_of_getElem? h)
    obtain ⟨w, h1, h2⟩ := exists_other b this b.1
    exact ⟨_, b.1, w, rfl, h1, ⟨le_rfl, this.le⟩, h2⟩

/-- The distribution of the random outcomes of the `Uniform` mutation: those of the genes to change are as for `Flip`, and for each of them the values are drawn with equal probabilities. -/
noncomputable def intLaw (bounds : List (Int × Int)) (p : ℝ) (N : Nat) (many : Nat → Bool) : Measure (IntDraws bounds many) :=
  (flipLaw bounds.length p N many).bind (fun d => ProbabilityTheory.uniformOn {e : IntDraws bounds many | e.loci = d})

/-- The `Uniform` mutation with the random outcomes `d`. -/
def intOp {bounds : List (Int × Int)} (many : Nat → Bool) (d : IntDraws bounds many) (l : List Int) : List Int :=
  (intUniform d.loci.count (many d.loci.count) d.loci.positions d.values l).getD l

theorem intSet_finite (bounds : List (Int × Int)) (many : Nat → Bool) (d : FlipDraws) : {e : IntDraws bounds many | e.loci = d}.Finite := by
  refine Set.Finite.of_finite_image (f := IntDraws.values) ((forall2_finite _ (geneValues_finite bounds) ((sampleIndices bounds.length d.count (many d.count) d.positions).getD [])).subset ?_) ?_
  · rintro vs ⟨e, rfl, rfl⟩
    exact e.valid
  · rintro ⟨l1, v1, h1⟩ rfl ⟨l2, v2, h2⟩ e hv
    obtain rfl : l2 = l1 := e
    obtain rfl : v1 = v2 := hv
    rfl

theorem intSet_nonempty (bounds : List (Int × Int)) (hb : ∀ b ∈ bounds, b.1 < b.2) (many : Nat → Bool) (d : FlipDraws) : {e : IntDraws bounds many | e.loci = d}.Nonempty := by
  obtain ⟨vs, h⟩ := forall2_exists (GeneValues bounds) ((sampleIndices bounds.length d.count (many d.count) d.positions).getD []) (fun i _ => geneValues_exists bounds hb i)
  exact ⟨⟨d, vs, h⟩, rfl⟩

theorem intLaw_prob (bounds : List (Int × Int)) (hlen : bounds.length < 65536) (hb : ∀ b ∈ bounds, b.1 < b.2) (p : ℝ) (h0 : 0 < p) (h1 : p < 1) (N : Nat) (hN : 0 < N) (many : Nat → Bool) :
    IsProbabilityMeasure (intLaw bounds p N many) := by
  have := flipLaw_prob bounds.length hlen p h0 h1 N hN many
  constructor
  unfold intLaw
  rw [Measure.bind_apply .univ Measurable.of_discrete.aemeasurable]
  have e : ∀ d, ProbabilityTheory.uniformOn {e : IntDraws bounds many | e.loci = d} Set.univ = 1 := fun d =>
    (ProbabilityTheory.uniformOn_isProbabilityMeasure (intSet_finite bounds many d) (intSet_nonempty bounds hb many d)).measure_univ
  simp only [e, lintegral_one, measure_univ]

/-- The positions of the genes that `Flip` (or `Uniform`) changes are any given ones with a positive probability. -/
theorem flipLaw_positions (n : Nat) (hn : n < 65536) (p : ℝ) (h0 : 0 < p) (h1 : p < 1) (N : Nat) (hN : 0 < N) (many : Nat → Bool) (k : Nat) (hk : k ≤ n) (target : List Int) (ht : IsSample 0 n k target) :
    0 < flipLaw n p N many {d | d.count = k ∧ d.positions ∈ SampleInputs 0 n k (many k) ∧ ∃ numbers, sampleUnique 0 n k (many k) d.positions = some numbers ∧ numbers.Perm target} := by
  obtain ⟨g1, g2⟩ := C76_sample_uniform_partial 0 n k (by omega) (by omega) (many k) target ht
  have hpos := (countLaw_spec n p h0 h1 N hN).1 k hk
  unfold flipLaw
  rw [Measure.finsetSum_apply]
  refine lt_of_lt_of_le ?_ (Finset.single_le_sum (fun _ _ => bot_le) (Finset.mem_range.mpr (by omega : k < n + 1)))
  rw [Measure.smul_apply, smul_eq_mul]
  refine ENNReal.mul_pos (by rwa [ne_eq, ENNReal.ofReal_eq_zero, not_le]) ?_
  rw [ProbabilityTheory.uniformOn, ProbabilityTheory.cond_apply .of_discrete]
  have e1 : Measure.count {d : FlipDraws | d.count = k ∧ d.positions ∈ SampleInputs 0 n k (many k)} = (Set.ncard (SampleInputs 0 n k (many k)) : ENNReal) := by
    have := flipSet_ncard n k hk hn many (fun _ => True)
    simpa using this
  have e2 := flipSet_ncard n k hk hn many (fun draws => ∃ numbers, sampleUnique 0 n k (many k) draws = some numbers ∧ numbers.Perm target)
  have e3 : {d : FlipDraws | d.count = k ∧ d.positions ∈ SampleInputs 0 n k (many k)} ∩ {d | ∃ numbers, sampleUnique 0 n k (many k) d.positions = some numbers ∧ numbers.Perm target} ⊆
      {d : FlipDraws | d.count = k ∧ d.positions ∈ SampleInputs 0 n k (many k)} ∩
        {d | d.count = k ∧ d.positions ∈ SampleInputs 0 n k (many k) ∧ ∃ numbers, sampleUnique 0 n k (many k) d.positions = some numbers ∧ numbers.Perm target} := by
    rintro d ⟨⟨a, b⟩, c⟩
    exact ⟨⟨a, b⟩, a, b, c⟩
  refine (lt_of_lt_of_le ?_ (mul_le_mul_right (measure_mono e3) _)).ne'
  rw [e1, e2]
  refine ENNReal.mul_pos ?_ ?_
  · rw [ne_eq, ENNReal.inv_eq_zero]
    exact ENNReal.natCast_ne_top _
  · intro h
    rw [Nat.cast_eq_zero] at h
    rw [h] at g1
    omega

/-- If the positions are those where the chromosomes differ, some values lead from one to the other. -/
theorem intOp_hits (bounds : List (Int × Int)) (hlen : bounds.length < 65536) (hb : ∀ b ∈ bounds, b.1 < b.2) (many : Nat → Bool) (c x : List Int) (hc : IntsWithin bounds c) (hx : IntsWithin bounds x)
    (d : FlipDraws) (hk : d.count ≤ bounds.length) (hd : d.positions ∈ SampleInputs 0 bounds.length d.count (many d.count)) (numbers : List Int)
    (hs : sampleUnique 0 bounds.length d.count (many d.count) d.positions = some numbers) (hp : numbers.Perm (diffLoci c x)) :
    ∃ e : IntDraws bounds many, e.loci = d ∧ intOp many e c = x := by
  obtain ⟨numbers', a1, a2, a3, a4⟩ := sampleIndices_eq hk hlen hd
  rw [hs] at a1
  obtain rfl := Option.some.inj a1
  have hmem : ∀ i : Nat, i ∈ numbers.map Int.toNat ↔ i < c.length ∧ c[i]? ≠ x[i]? := fun i => by
    rw [mem_toNat a2, hp.mem_iff, mem_diffLoci]
  -- two draws for each gene, the first one is the new gene
  obtain ⟨vs, hvs⟩ := forall2_exists (fun i ds => GeneValues bounds i ds ∧ ∃ v w, ds = [v, w] ∧ x[i]? = some v) (numbers.map Int.toNat) (by
    intro i hi
    have hi := ((hmem i).mp hi).1
    have hib : i < bounds.length := by rw [← hc.1]; exact hi
    have hix : i < x.length := by rw [hx.1]; exact hib
    obtain ⟨w, hw1, hw2⟩ := exists_other bounds[i] (hb _ (List.getElem_mem _)) x[i]
    refine ⟨[x[i], w], ?_, _, _, rfl, List.getElem?_eq_getElem hix⟩
    unfold GeneValues
    rw [List.getElem?_eq_getElem hib]
    exact ⟨_, _, rfl, hw1, hx.2 i _ _ (List.getElem?_eq_getElem hib) (List.getElem?_eq_getElem hix), hw2⟩)
  have hvl := hvs.length_eq
  refine ⟨⟨d, vs, by rw [a3]; exact hvs.imp (fun _ _ h => h.1)⟩, rfl, ?_⟩
  have hfst : ((numbers.map Int.toNat).zip vs).map Prod.fst = numbers.map Int.toNat := List.map_fst_zip hvl.le
  have hval : ∀ i ds, (i, ds) ∈ (numbers.map Int.toNat).zip vs → ∃ v w, ds = [v, w] ∧ x[i]? = some v := by
    intro i ds hm
    exact ((List.forall₂_iff_zip.mp hvs).2 hm).2
  have hgene : ∀ i ds, (i, ds) ∈ (numbers.map Int.toNat).zip vs → ∃ g, c[i]? = some g ∧ newIntGene g ds = x[i]? := by
    intro i ds hm
    obtain ⟨hi, hne⟩ := (hmem i).mp (List.of_mem_zip hm).1
    obtain ⟨v, w, rfl, hv⟩ := hval i ds hm
    refine ⟨_, List.getElem?_eq_getElem hi, ?_⟩
    rw [hv, List.getElem?_eq_getElem hi] at hne
    have : v ≠ c[i] := fun h => hne (by rw [h])
    rw [hv]
    simp [newIntGene, this]
  obtain ⟨r, hr⟩ := updateAt_nodup_total (f := fun _ ds old => newIntGene old ds) ((numbers.map Int.toNat).zip vs) c (by rw [hfst]; exact a4) (by
    intro i ds hm
    obtain ⟨g, h1, h2⟩ := hgene i ds hm
    obtain ⟨v, w, -, hv⟩ := hval i ds hm
    exact ⟨g, h1, by show (newIntGene g ds).isSome; rw [h2, hv]; rfl⟩)
  have hpart := (updateAt_partial (fun _ _ => True) _ c r hr (by intros; trivial) (by intros; trivial)).1
  rw [hfst] at hpart
  have hrx : r = x := by
    apply List.ext_getElem?
    intro i
    by_cases hi : i ∈ numbers.map Int.toNat
    · obtain ⟨ds, hm⟩ : ∃ ds, (i, ds) ∈ (numbers.map Int.toNat).zip vs := by
        rw [← hfst] at hi
        obtain ⟨⟨i', ds⟩, hm, rfl⟩ := List.mem_map.mp hi
        exact ⟨ds, hm⟩
      obtain ⟨g, g', k1, k2, k3⟩ := updateAt_nodup _ c r hr (by rw [hfst]; exact a4) i ds hm
      obtain ⟨g0, m1, m2⟩ := hgene i ds hm
      rw [k1] at m1
      obtain rfl := Option.some.inj m1
      rw [k3, ← k2]
      exact m2
    · rw [hpart.2 i hi]
      by_contra hne
      refine hi ((hmem i).mpr ⟨?_, hne⟩)
      by_contra hge
      refine hne ?_
      rw [List.getElem?_eq_none (by omega), List.getElem?_eq_none (by rw [hx.1, ← hc.1]; omega)]
  unfold intOp
  simp only [intUniform, hc.1, a3, Option.bind_eq_bind, Option.bind_some, hvl, if_true, hr, Option.getD_some, hrx]

/-- `Uniform` turns any chromosome within the bounds into any other one with a positive probability. -/
theorem intLaw_hit (bounds : List (Int × Int)) (hlen : bounds.length < 65536) (hb : ∀ b ∈ bounds, b.1 < b.2) (p : ℝ) (h0 : 0 < p) (h1 : p < 1) (N : Nat) (hN : 0 < N) (many : Nat → Bool)
    (c x : List Int) (hc : IntsWithin bounds c) (hx : IntsWithin bounds x) : 0 < intLaw bounds p N many {e | intOp many e c = x} := by
  have hle : hammingDist c x ≤ bounds.length := by
    rw [← hc.1]
    exact le_trans (List.length_filter_le _ _) (by simp)
  have hpos := flipLaw_positions bounds.length hlen p h0 h1 N hN many (hammingDist c x) hle (diffLoci c x) (by rw [← hc.1]; exact diffLoci_sample c x)
  unfold intLaw
  rw [Measure.bind_apply .of_discrete Measurable.of_discrete.aemeasurable, lintegral_pos_iff_support Measurable.of_discrete]
  refine lt_of_lt_of_le hpos (measure_mono ?_)
  rintro d ⟨a, b, numbers, hn, hp⟩
  rw [← a] at hle b hn
  obtain ⟨e, rfl, he⟩ := intOp_hits bounds hlen hb many c x hc hx d hle b numbers hn hp
  rw [Function.mem_support]
  intro hz
  have hf := intSet_finite bounds many e.loci
  rw [ProbabilityTheory.uniformOn_eq_zero_iff hf] at hz
  have : e ∈ {e' : IntDraws bounds many | e'.loci = e.loci} ∩ {e | intOp many e c = x} := ⟨rfl, he⟩
  rw [hz] at this
  exact this

theorem intsWithin_finite (bounds : List (Int × Int)) : {c | IntsWithin bounds c}.Finite := by
  refine (forall2_finite (fun (b : Int × Int) x => b.1 ≤ x ∧ x ≤ b.2) (fun b => Set.finite_Icc b.1 b.2) bounds).subset ?_
  rintro c ⟨hl, hc⟩
  refine List.forall₂_iff_get.mpr ⟨hl.symm, fun i h1 h2 => ?_⟩
  exact hc i _ _ (List.getElem?_eq_getElem h1) (List.getElem?_eq_getElem h2)

theorem intChance (bounds : List (Int × Int)) (hlen : bounds.length < 65536) (hb : ∀ b ∈ bounds, b.1 < b.2) (p : ℝ) (h0 : 0 < p) (h1 : p < 1) (N : Nat) (hN : 0 < N) (many : Nat → Bool)
    (x : List Int) (hx : IntsWithin bounds x) : ∃ ε, 0 < ε ∧ ∀ c, IntsWithin bounds c → ε ≤ intLaw bounds p N many {e | intOp many e c = x} := by
  refine ⟨(intsWithin_finite bounds).toFinset.inf (fun c => intLaw bounds p N many {e | intOp many e c = x}), ?_, ?_⟩
  · rw [Finset.lt_inf_iff (by simp)]
    intro c hc
    exact intLaw_hit bounds hlen hb p h0 h1 N hN many c x (by simpa using hc) hx
  · intro c hc
    exact Finset.inf_le (by simpa using hc)

theorem intOp_within (bounds : List (Int × Int)) (many : Nat → Bool) (d : IntDraws bounds many) (c : List Int) (hc : IntsWithin bounds c) : IntsWithin bounds (intOp many d c) := by
  unfold intOp
  cases h : intUniform d.loci.count (many d.loci.count) d.loci.positions d.values c with
  | none => exact hc
  | some r =>
    show IntsWithin bounds r
    unfold intUniform at h
    simp only [Option.bind_eq_bind, Option.bind_eq_some_iff] at h
    obtain ⟨idxs, hi, h⟩ := h
    have hv := d.valid
    rw [← hc.1, hi] at hv
    split at h
    · obtain ⟨k1, k2⟩ := updateAt_partial (fun i x => ∀ b, bounds[i]? = some b → b.1 ≤ x ∧ x ≤ b.2) _ _ _ h (by
        intro i ds g g' hm hg hg' b hbi
        have hgv : GeneValues bounds i ds := (List.forall₂_iff_zip.mp hv).2 hm
        unfold GeneValues at hgv
        rw [hbi] at hgv
        obtain ⟨v, w, rfl, -, hv1, hw1⟩ := hgv
        have := List.mem_of_find?_eq_some hg'
        simp only [List.mem_cons, List.not_mem_nil, or_false] at this
        rcases this with rfl | rfl
        · exact hv1
        · exact hw1) (fun i g hg b hbi => hc.2 i b g hbi hg)
      exact ⟨k1.1.trans hc.1, fun i b x hbi hx => k2 i x hx b hbi⟩
    · cases h

section
variable {K A S V : Type} [CommRing K] [LinearOrder K] [IsStrictOrderedRing K]

theorem ints_domain {env : GaEnv Int K A S V} {bounds : List (Int × Int)} (hb : ∀ b ∈ bounds, b.1 < b.2) (h : UsesIntegers env bounds) {initial : List (Cand Int (FVec K))}
    (hu : UserParts env initial (IntsWithin bounds)) (many : Nat → Bool) (draws : List (IntDraws bounds many)) : KeepsDomain (withMutations env (intOp many) draws) initial (IntsWithin bounds) where
  generate := by
    intro k
    obtain ⟨us, h1⟩ := h.generate k
    obtain ⟨x, h2, h3, h4⟩ := C51_integer bounds (fun b hm => (hb b hm).le) us
    rw [h1] at h2
    obtain rfl := Option.some.inj h2
    exact ⟨h3, fun i b x hbi hx => h4 i x b hx hbi⟩
  cross := by
    intro g k p q hp hq
    have hiff : ∀ l, IntsWithin bounds l ↔ l.length = bounds.length ∧ ∀ (i : Nat) (x : Int), l[i]? = some x → ∀ b, bounds[i]? = some b → b.1 ≤ x ∧ x ≤ b.2 := by
      intro l
      exact ⟨fun h => ⟨h.1, fun i x hx b hbi => h.2 i b x hbi hx⟩, fun h => ⟨h.1, fun i b x hbi hx => h.2 i x hx b hbi⟩⟩
    have hr := h.cross g k p q hp hq
    rw [hiff] at hp hq
    obtain ⟨⟨a1, a2⟩, b1, b2⟩ := pointCross_genes hr (hp.1.trans hq.1.symm) (fun i x => ∀ b, bounds[i]? = some b → b.1 ≤ x ∧ x ≤ b.2) hp.2 hq.2
    rw [hiff, hiff]
    exact ⟨⟨a1.trans hp.1, a2⟩, b1.trans hp.1, b2⟩
  mutate := by
    intro g k c hc
    show IntsWithin bounds (if k < env.popSize then _ else _)
    split
    · split
      · exact intOp_within bounds many _ _ hc
      · exact hc
    · exact hc
  user := ⟨hu.initial, hu.repair, hu.sort⟩

/-- **C85** for an `IntegerGA` with one objective, the `Uniform` mutation with a rate strictly between 0 and 1, genes with at least two values each, and `KeepBest` or `Elitism` with fewer elites than
candidates: the probability that `solve` only returns best solutions of all the chromosomes within the bounds tends to one as the number of generations grows. -/
theorem C85_integer {env : GaEnv Int K A S V} {bounds : List (Int × Int)} (hlen : bounds.length < 65536) (hbd : ∀ b ∈ bounds, b.1 < b.2) (hb : UsesIntegers env bounds)
    (hr : UsesKeepBest env ∨ ∃ m, m < env.popSize ∧ UsesElitismOf env m) {prev : GaState Int (FVec K) A V} {initial : List (Cand Int (FVec K))}
    (hu : UserParts env initial (IntsWithin bounds)) {I J : A → List (FVec K) → Prop} (h : ExactRun env prev initial I J) (hc : CompleteRun env I) (p : ℝ) (h0 : 0 < p) (h1 : p < 1)
    (N : Nat) (hN : 0 < N) (many : Nat → Bool) (x : List Int) (hx : IntsWithin bounds x) (hbest : ∀ y, IntsWithin bounds y → AtLeastAsGood (env.fitness x) (env.fitness y))
    (hrep : ∀ r, env.repair = some r → r x = x) (hs : NeverStops env) :
    Tendsto (fun n => drawProb (intLaw bounds p N many) (n * env.popSize) (fun draws => FindsBest (withMutations { env with maxGen := n + 1 } (intOp many) draws) prev initial (IntsWithin bounds)))
      atTop (nhds 1) := by
  have hprob := intLaw_prob bounds hlen hbd p h0 h1 N hN many
  obtain ⟨ε, hε, hhit⟩ := intChance bounds hlen hbd p h0 h1 N hN many x hx
  obtain ⟨k, hk0, hk, hret, hkp, hone⟩ : ∃ k, 0 < k ∧ k ≤ env.popSize ∧ RetainsChildren env k ∧ KeepsParents env ∧ env.numObj = 1 := by
    rcases hr with hr | ⟨m, hm, hr⟩
    · obtain ⟨r1, r2⟩ := KeepsBest.retains hr.keeps
      exact ⟨env.popSize, hr.positive, le_rfl, r1, r2, hr.single⟩
    · obtain ⟨r1, r2⟩ := hr.retains
      exact ⟨env.popSize - m, by omega, by omega, r1, r2, hr.single⟩
  have hconv := C85_converges (intLaw bounds p N many) h hc (intOp many) (IntsWithin bounds) (ints_domain hbd hb hu many) x hrep ε hε hhit k hk0 hk hret hs (Or.inr hkp)
  refine tendsto_of_tendsto_of_tendsto_of_le_of_le hconv tendsto_const_nhds (fun n => ?_) (fun n => drawProb_le_one _ _ _)
  refine drawProb_mono_length _ _ ?_
  intro draws _ hf
  have e1 : ExactRun { env with maxGen := n + 1 } prev initial I J := ⟨⟨h.alg.init, h.alg.prepare, h.alg.select, h.alg.next⟩, h.exact, h.lengths, h.dynCache, h.initial, h.prevCache⟩
  have e2 : CompleteRun { env with maxGen := n + 1 } I := ⟨hc.evalSched, hc.mergeSched, hc.tol, hc.optimal, hc.sort⟩
  exact findsBest_of_finds (run_withMutations e1 _ draws) (complete_withMutations e2 _ draws) hone _ x hbest hf
end

/-- An `IntegerGA` that looks for the greatest sum of the genes, with `KeepBest`. -/
def demoSum : GaEnv Int ℤ Unit Unit (FVec ℤ) :=
  { demoInts with
    fitness := fun x => [.fin x.sum]
    numObj := 1
    keepAll := false
    cachedGens := 0
    sortSols := fun l => l.insertionSort (fun a b => a.chrom ≤ b.chrom)
    algNext := demoElitism.algNext }

theorem demoSum_uses : UsesKeepBest demoSum where
  single := rfl
  positive := by decide
  tol := rfl
  select := fun _ _ _ k _ _ => Nat.mod_lt _ (by decide)
  replace := fun a all g hl hm => Or.inr (demoElitism_keeps a all g hl hm)
  optimal := fun _ => rfl
  keepBest := demoElitism_keeps

theorem demoSum_run : ExactRun demoSum (demoPrev Int) [] (fun _ _ => True) (fun a fmat => ∃ a0, a = demoSum.algPrepare a0 fmat) :=
  ⟨demoSum_uses.contract, rfl, fun _ => rfl, fun h => (by cases h), (by simp), ⟨_, FifoCache.repr_init 0 0⟩⟩

theorem demoSum_complete : CompleteRun demoSum (fun _ _ => True) where
  evalSched := (demo_complete false 0 4).evalSched
  mergeSched := (demo_complete false 0 4).mergeSched
  tol := rfl
  optimal := fun _ _ _ _ _ => Or.inl rfl
  sort := fun l => by
    refine ⟨List.perm_insertionSort _ l, ?_⟩
    have ht : IsTrans (Cand Int (FVec ℤ)) (fun a b => a.chrom ≤ b.chrom) := ⟨fun _ _ _ h1 h2 => le_trans h1 h2⟩
    have htot : Std.Total (fun a b : Cand Int (FVec ℤ) => a.chrom ≤ b.chrom) := ⟨fun a b => le_total _ _⟩
    exact (List.pairwise_insertionSort (fun a b : Cand Int (FVec ℤ) => a.chrom ≤ b.chrom) l).imp (fun h => not_lt.mpr h)

theorem demoSum_ints : UsesIntegers demoSum demoBounds := ⟨demoInts_uses.generate, demoInts_uses.cross, demoInts_uses.mutate⟩

theorem demoSum_best (y : List Int) (hy : IntsWithin demoBounds y) : AtLeastAsGood (demoSum.fitness [9, 5, 3, 1]) (demoSum.fitness y) := by
  refine ⟨rfl, fun i ha hb => ?_⟩
  have hi0 : i = 0 := by
    have ha : i < 1 := ha
    omega
  subst hi0
  show Flt.fin y.sum ≤ Flt.fin 18
  refine Flt.fin_le_fin.mpr ?_
  obtain ⟨hl, hy⟩ := hy
  match y, hl with
  | [a, b, c, d], _ =>
    have h1 := (hy 0 (0, 9) a rfl rfl).2
    have h2 := (hy 1 (-5, 5) b rfl rfl).2
    have h3 := (hy 2 (2, 3) c rfl rfl).2
    have h4 := (hy 3 (0, 1) d rfl rfl).2
    simp only [List.sum_cons, List.sum_nil] at *
    omega

-- the greatest sum is found, if the run is long enough; a third of the genes are changed
example : Tendsto (fun n => drawProb (intLaw demoBounds (1 / 3) 1 (fun k => decide (2 ≤ k))) (n * 2) (fun draws =>
    FindsBest (withMutations { demoSum with maxGen := n + 1 } (intOp (fun k => decide (2 ≤ k))) draws) (demoPrev Int) [] (IntsWithin demoBounds))) atTop (nhds 1) :=
  C85_integer (by decide) (by decide) demoSum_ints (Or.inl demoSum_uses) ⟨by simp, fun r h => (by cases h), fun l c h => (List.perm_insertionSort _ l).mem_iff.mp h⟩ demoSum_run demoSum_complete (1 / 3)
    (by norm_num) (by norm_num) 1 (by decide) _ [9, 5, 3, 1] ⟨rfl, fun i b x hb hx => by
      match i with
      | 0 => cases hb; cases hx; decide
      | 1 => cases hb; cases hx; decide
      | 2 => cases hb; cases hx; decide
      | 3 => cases hb; cases hx; decide
      | n + 4 => cases hx⟩ demoSum_best (fun r h => by cases h) (fun _ _ => rfl)

-- a gene with a single value: the loop of the mutation never ends
example (n : Nat) : newIntGene 3 (List.replicate n 3) = none := by
  unfold newIntGene
  rw [List.find?_eq_none]
  intro x hx
  rw [List.eq_of_mem_replicate hx]
  decide

end Gapp.Props
