import Verif.Spec.ConvergenceReal
import Verif.Props.ConvergenceInt
/-!
# C85 for real genes
-/

namespace Gapp.Props
open Gapp.Model Gapp.Spec Gapp.Proofs.Convergence Gapp.Proofs.Draws MeasureTheory Filter

/-- The values drawn for `k` genes. -/
def realValues (k : Nat) : Set (List Nat) := {vs | vs.length = k ∧ ∀ v ∈ vs, v < 2 ^ 53}

/-- The distribution of the random outcomes of the `Uniform` mutation: those of the genes to change are as for `Flip`, and for each of them `randomReal()` has equal probabilities. -/
noncomputable def realLaw (n : Nat) (p : ℝ) (N : Nat) (many : Nat → Bool) : Measure RealDraws :=
  (flipLaw n p N many).bind (fun d => ProbabilityTheory.uniformOn {e : RealDraws | e.loci = d ∧ e.values ∈ realValues d.count})

theorem realValues_card (k : Nat) : (realValues k).Finite ∧ (realValues k).ncard = (2 ^ 53) ^ k := by
  have hf : realValues k = Set.range (fun f : Fin k → Fin (2 ^ 53) => List.ofFn (fun i => (f i).val)) := by
    ext vs
    constructor
    · rintro ⟨hl, hv⟩
      subst hl
      refine ⟨fun i => ⟨vs[i], hv _ (List.getElem_mem _)⟩, ?_⟩
      simp
    · rintro ⟨f, rfl⟩
      refine ⟨by simp, ?_⟩
      intro v hv
      obtain ⟨i, rfl⟩ := List.mem_ofFn.mp hv
      exact (f i).isLt
  have hinj : Function.Injective (fun f : Fin k → Fin (2 ^ 53) => List.ofFn (fun i => (f i).val)) := by
    intro f g h
    have := List.ofFn_injective h
    funext i
    exact Fin.ext (congrFun this i)
  constructor
  · rw [hf]; exact Set.finite_range _
  · rw [hf, ← Set.image_univ, Set.ncard_image_of_injective _ hinj, Set.ncard_univ, Nat.card_eq_fintype_card, Fintype.card_fun, Fintype.card_fin, Fintype.card_fin]

theorem realSet_eq (d : FlipDraws) : {e : RealDraws | e.loci = d ∧ e.values ∈ realValues d.count} = RealDraws.mk d '' realValues d.count := by
  ext ⟨l, v⟩
  simp only [Set.mem_setOf_eq, Set.mem_image, RealDraws.mk.injEq]
  constructor
  · rintro ⟨rfl, h⟩; exact ⟨v, h, rfl, rfl⟩
  · rintro ⟨v', h, rfl, rfl⟩; exact ⟨rfl, h⟩

theorem realSet_finite (d : FlipDraws) : {e : RealDraws | e.loci = d ∧ e.values ∈ realValues d.count}.Finite := by
  rw [realSet_eq]; exact (realValues_card _).1.image _

theorem realSet_count (d : FlipDraws) : Measure.count {e : RealDraws | e.loci = d ∧ e.values ∈ realValues d.count} = (((2 ^ 53) ^ d.count : Nat) : ENNReal) := by
  have hinj : Function.Injective (RealDraws.mk d) := fun a b h => by cases h; rfl
  rw [Measure.count_apply .of_discrete, realSet_eq, hinj.encard_image, ← (realValues_card _).1.cast_ncard_eq, (realValues_card _).2]
  rfl

theorem realLaw_prob (n : Nat) (hn : n < 65536) (p : ℝ) (h0 : 0 < p) (h1 : p < 1) (N : Nat) (hN : 0 < N) (many : Nat → Bool) : IsProbabilityMeasure (realLaw n p N many) := by
  have := flipLaw_prob n hn p h0 h1 N hN many
  constructor
  unfold realLaw
  rw [Measure.bind_apply .univ Measurable.of_discrete.aemeasurable]
  have e : ∀ d : FlipDraws, ProbabilityTheory.uniformOn {e : RealDraws | e.loci = d ∧ e.values ∈ realValues d.count} Set.univ = 1 := fun d =>
    (ProbabilityTheory.uniformOn_isProbabilityMeasure (realSet_finite d) ⟨⟨d, List.replicate d.count 0⟩, rfl, by simp, fun v hv => by rw [List.eq_of_mem_replicate hv]; norm_num⟩).measure_univ
  simp only [e, lintegral_one, measure_univ]

/-- A lower bound for the probability that the positions of the changed genes are the given ones. -/
theorem flipLaw_positions_ge (n : Nat) (hn : n < 65536) (p : ℝ) (N : Nat) (many : Nat → Bool) (k : Nat) (hk : k ≤ n) (target : List Int) (ht : IsSample 0 n k target) :
    flipChance n p N ≤
      flipLaw n p N many {d | d.count = k ∧ d.positions ∈ SampleInputs 0 n k (many k) ∧ ∃ numbers, sampleUnique 0 n k (many k) d.positions = some numbers ∧ numbers.Perm target} := by
  obtain ⟨g1, g2⟩ := C76_sample_uniform_partial 0 n k (by omega) (by omega) (many k) target ht
  refine le_trans (Finset.inf_le (Finset.mem_range.mpr (by omega : k < n + 1))) ?_
  unfold flipLaw
  rw [Measure.finsetSum_apply]
  refine le_trans ?_ (Finset.single_le_sum (f := fun k' => (ENNReal.ofReal (countLaw n p N k') • ProbabilityTheory.uniformOn {d : FlipDraws | d.count = k' ∧ d.positions ∈ SampleInputs 0 n k' (many k')})
      {d | d.count = k ∧ d.positions ∈ SampleInputs 0 n k (many k) ∧ ∃ numbers, sampleUnique 0 n k (many k) d.positions = some numbers ∧ numbers.Perm target})
    (fun _ _ => bot_le) (Finset.mem_range.mpr (by omega : k < n + 1)))
  rw [Measure.smul_apply, smul_eq_mul]
  gcongr
  rw [ProbabilityTheory.uniformOn, ProbabilityTheory.cond_apply .of_discrete]
  have e1 : Measure.count {d : FlipDraws | d.count = k ∧ d.positions ∈ SampleInputs 0 n k (many k)} = (Set.ncard (SampleInputs 0 n k (many k)) : ENNReal) := by
    have := flipSet_ncard n k hk hn many (fun _ => True)
    simpa using this
  have e2 := flipSet_ncard n k hk hn many (fun draws => ∃ numbers, sampleUnique 0 n k (many k) draws = some numbers ∧ numbers.Perm target)
  have e3 : {d : FlipDraws | d.count = k ∧ d.positions ∈ SampleInputs 0 n k (many k)} ∩ {d | ∃ numbers, sampleUnique 0 n k (many k) d.positions = some numbers ∧ numbers.Perm target} ⊆
      {d : FlipDraws | d.count = k ∧ d.positions ∈ SampleInputs 0 n k (many k)} ∩
        {d | d.count = k ∧ d.positions ∈ SampleInputs 0 n k (many k) ∧ ∃ numbers, sampleUnique 0 n k (many k) d.positions = some numbers ∧ numbers.Perm target} := by
    rintro d ⟨⟨a, b⟩, c⟩
    exact ⟨⟨a, b⟩, a, b, c⟩
  refine le_trans ?_ (mul_le_mul_right (measure_mono e3) _)
  rw [e1, e2, ← g1]
  have hz : (Set.ncard {draws ∈ SampleInputs 0 n k (many k) | ∃ numbers, sampleUnique 0 n k (many k) draws = some numbers ∧ numbers.Perm target} : ENNReal) ≠ 0 := by
    intro h
    rw [Nat.cast_eq_zero] at h
    rw [h] at g1
    omega
  rw [Nat.cast_mul, ENNReal.mul_inv (Or.inl hz) (Or.inl (ENNReal.natCast_ne_top _)), mul_comm, ← mul_assoc, ENNReal.mul_inv_cancel hz (ENNReal.natCast_ne_top _), one_mul]
  simp

section
variable {R : Type} [Field R] [LinearOrder R] [IsStrictOrderedRing R]

/-- The `Uniform` mutation with the random outcomes `d`. -/
def realOp (bounds : List (GeneBounds R)) (many : Nat → Bool) (d : RealDraws) (l : List R) : List R :=
  (realMutate realUniformGene bounds d.loci.count (many d.loci.count) d.loci.positions (d.values.map (fun k : Nat => (k : R) / 2 ^ 53)) l).getD l

theorem realOp_length (bounds : List (GeneBounds R)) (many : Nat → Bool) (d : RealDraws) (l : List R) : (realOp bounds many d l).length = l.length := by
  unfold realOp
  cases h : realMutate realUniformGene bounds d.loci.count (many d.loci.count) d.loci.positions (d.values.map (fun k : Nat => (k : R) / 2 ^ 53)) l with
  | none => rfl
  | some r =>
    show r.length = l.length
    unfold realMutate at h
    simp only [Option.bind_eq_bind, Option.bind_eq_some_iff] at h
    obtain ⟨idxs, -, h⟩ := h
    split at h
    · exact (updateAt_partial (fun _ _ => True) _ _ _ h (by intros; trivial) (by intros; trivial)).1.1
    · cases h

/-- If the positions are those where the chromosomes differ, some values lead from one to the other. -/
theorem realOp_hits (bounds : List (GeneBounds R)) (hlen : bounds.length < 65536) (many : Nat → Bool) (c x : List R) (hc : c.length = bounds.length) (hx : OnGrid bounds x)
    (d : FlipDraws) (hk : d.count ≤ bounds.length) (hd : d.positions ∈ SampleInputs 0 bounds.length d.count (many d.count)) (numbers : List Int)
    (hs : sampleUnique 0 bounds.length d.count (many d.count) d.positions = some numbers) (hp : numbers.Perm (diffLoci c x)) :
    ∃ e : RealDraws, (e.loci = d ∧ e.values ∈ realValues d.count) ∧ realOp bounds many e c = x := by
  obtain ⟨numbers', a1, a2, a3, a4⟩ := sampleIndices_eq hk hlen hd
  rw [hs] at a1
  obtain rfl := Option.some.inj a1
  have hxl : x.length = bounds.length := hx.length_eq.symm
  have hmem : ∀ i : Nat, i ∈ numbers.map Int.toNat ↔ i < c.length ∧ c[i]? ≠ x[i]? := fun i => by
    rw [mem_toNat a2, hp.mem_iff, mem_diffLoci]
  obtain ⟨vs, hvs⟩ := forall2_exists (fun (i v : Nat) => v < 2 ^ 53 ∧ ∃ b, bounds[i]? = some b ∧ x[i]? = some (b.lower + (b.upper - b.lower) * ((v : R) / 2 ^ 53))) (numbers.map Int.toNat) (by
    intro i hi
    have hi := ((hmem i).mp hi).1
    have hib : i < bounds.length := by rw [← hc]; exact hi
    have hix : i < x.length := by rw [hxl]; exact hib
    obtain ⟨k, hk, he⟩ := List.Forall₂.get hx hib hix
    refine ⟨k, hk, bounds[i], List.getElem?_eq_getElem hib, ?_⟩
    rw [List.getElem?_eq_getElem hix]
    exact congrArg some he)
  have hvl := hvs.length_eq
  have hzip : ∀ i v, (i, v) ∈ (numbers.map Int.toNat).zip vs → v < 2 ^ 53 ∧ ∃ b, bounds[i]? = some b ∧ x[i]? = some (b.lower + (b.upper - b.lower) * ((v : R) / 2 ^ 53)) :=
    fun i v hm => (List.forall₂_iff_zip.mp hvs).2 hm
  refine ⟨⟨d, vs⟩, ⟨rfl, ?_, ?_⟩, ?_⟩
  · rw [← hvl, List.length_map, a2.1]
  · intro v hv
    obtain ⟨i, hi⟩ := List.getElem?_of_mem hv
    have hil : i < (numbers.map Int.toNat).length := by rw [hvl]; exact (List.getElem?_eq_some_iff.mp hi).1
    have hm : ((numbers.map Int.toNat)[i], v) ∈ (numbers.map Int.toNat).zip vs := by
      refine List.mem_of_getElem? (i := i) ?_
      rw [List.getElem?_zip_eq_some]
      exact ⟨List.getElem?_eq_getElem hil, hi⟩
    exact (hzip _ _ hm).1
  · have hvl' : (vs.map (fun k : Nat => (k : R) / 2 ^ 53)).length = (numbers.map Int.toNat).length := by rw [List.length_map, hvl]
    have hfst : ((numbers.map Int.toNat).zip (vs.map (fun k : Nat => (k : R) / 2 ^ 53))).map Prod.fst = numbers.map Int.toNat := List.map_fst_zip hvl'.ge
    have hgene : ∀ i r, (i, r) ∈ (numbers.map Int.toNat).zip (vs.map (fun k : Nat => (k : R) / 2 ^ 53)) →
        ∃ g b, c[i]? = some g ∧ bounds[i]? = some b ∧ x[i]? = some (realUniformGene b r g) := by
      intro i r hm
      have hi := ((hmem i).mp (List.of_mem_zip hm).1).1
      rw [List.zip_map_right] at hm
      obtain ⟨⟨i', k⟩, hm', e⟩ := List.mem_map.mp hm
      obtain ⟨rfl, rfl⟩ := Prod.mk.inj e
      obtain ⟨-, b, hb, hxi⟩ := hzip _ _ hm'
      exact ⟨_, b, List.getElem?_eq_getElem hi, hb, hxi⟩
    obtain ⟨r, hr⟩ := updateAt_nodup_total (f := fun idx d old => do
        let b ← bounds[idx]?
        return realUniformGene b d old) ((numbers.map Int.toNat).zip (vs.map (fun k : Nat => (k : R) / 2 ^ 53))) c (by rw [hfst]; exact a4) (by
      intro i ds hm
      obtain ⟨g, b, h1, h2, -⟩ := hgene i ds hm
      exact ⟨g, h1, by simp [h2]⟩)
    have hpart := (updateAt_partial (fun _ _ => True) _ c r hr (by intros; trivial) (by intros; trivial)).1
    rw [hfst] at hpart
    have hrx : r = x := by
      apply List.ext_getElem?
      intro i
      by_cases hi : i ∈ numbers.map Int.toNat
      · obtain ⟨ds, hm⟩ : ∃ ds, (i, ds) ∈ (numbers.map Int.toNat).zip (vs.map (fun k : Nat => (k : R) / 2 ^ 53)) := by
          rw [← hfst] at hi
          obtain ⟨⟨i', ds⟩, hm, rfl⟩ := List.mem_map.mp hi
          exact ⟨ds, hm⟩
        obtain ⟨g, g', k1, k2, k3⟩ := updateAt_nodup _ c r hr (by rw [hfst]; exact a4) i ds hm
        obtain ⟨g0, b, m1, m2, m3⟩ := hgene i ds hm
        rw [k1] at m1
        obtain rfl := Option.some.inj m1
        rw [k3, ← k2, m3, m2]
        rfl
      · rw [hpart.2 i hi]
        by_contra hne
        refine hi ((hmem i).mpr ⟨?_, hne⟩)
        by_contra hge
        refine hne ?_
        rw [List.getElem?_eq_none (by omega), List.getElem?_eq_none (by rw [hxl, ← hc]; omega)]
    unfold realOp
    simp only [realMutate, hc, a3, Option.bind_eq_bind, Option.bind_some, hvl', if_true] at hr ⊢
    rw [show updateAt _ _ c = some r from hr, hrx]
    rfl

/-- A lower bound for the probability that `Uniform` turns a chromosome into a given one of the grid. -/
noncomputable def realChance (n : Nat) (p : ℝ) (N : Nat) : ENNReal := (((2 ^ 53) ^ n : Nat) : ENNReal)⁻¹ * flipChance n p N

theorem realLaw_hit (bounds : List (GeneBounds R)) (hlen : bounds.length < 65536) (p : ℝ) (N : Nat) (many : Nat → Bool) (c x : List R) (hc : c.length = bounds.length) (hx : OnGrid bounds x) :
    realChance bounds.length p N ≤ realLaw bounds.length p N many {e | realOp bounds many e c = x} := by
  have hle : hammingDist c x ≤ bounds.length := by
    rw [← hc]
    exact le_trans (List.length_filter_le _ _) (by simp)
  have hpos := flipLaw_positions_ge bounds.length hlen p N many (hammingDist c x) hle (diffLoci c x) (by rw [← hc]; exact diffLoci_sample c x)
  unfold realLaw realChance
  rw [Measure.bind_apply .of_discrete Measurable.of_discrete.aemeasurable]
  refine le_trans (mul_le_mul_right hpos _) ?_
  refine le_trans ?_ (setLIntegral_le_lintegral {d | d.count = hammingDist c x ∧ d.positions ∈ SampleInputs 0 bounds.length (hammingDist c x) (many (hammingDist c x)) ∧
    ∃ numbers, sampleUnique 0 bounds.length (hammingDist c x) (many (hammingDist c x)) d.positions = some numbers ∧ numbers.Perm (diffLoci c x)} _)
  rw [← setLIntegral_const]
  refine setLIntegral_mono .of_discrete ?_
  rintro d ⟨a, b, numbers, hn, hp⟩
  rw [← a] at hle b hn
  obtain ⟨e, he, hx'⟩ := realOp_hits bounds hlen many c x hc hx d hle b numbers hn hp
  rw [ProbabilityTheory.uniformOn, ProbabilityTheory.cond_apply .of_discrete, realSet_count]
  have h1 : (1 : ENNReal) ≤ Measure.count ({e : RealDraws | e.loci = d ∧ e.values ∈ realValues d.count} ∩ {e | realOp bounds many e c = x}) := by
    have hs : ({e} : Set RealDraws) ⊆ {e : RealDraws | e.loci = d ∧ e.values ∈ realValues d.count} ∩ {e | realOp bounds many e c = x} := by
      rintro e' rfl
      exact ⟨he, hx'⟩
    refine le_trans ?_ (measure_mono hs)
    rw [Measure.count_singleton]
  refine le_trans ?_ (mul_le_mul_right h1 _)
  rw [mul_one, ENNReal.inv_le_inv]
  exact_mod_cast Nat.pow_le_pow_right (by norm_num) hle

variable {K A S V : Type} [CommRing K] [LinearOrder K] [IsStrictOrderedRing K]

theorem length_domain {env : GaEnv R K A S V} {initial : List (Cand R (FVec K))} (bounds : List (GeneBounds R)) (h : KeepsLength env initial bounds.length) (many : Nat → Bool) (draws : List RealDraws) :
    KeepsDomain (withMutations env (realOp bounds many) draws) initial (fun c => c.length = bounds.length) where
  generate := h.generate
  cross := h.cross
  mutate := by
    intro g k c hc
    show (if k < env.popSize then _ else _ : List R).length = _
    split
    · split
      · rw [realOp_length]; exact hc
      · exact hc
    · exact hc
  user := ⟨h.initial, h.repair, h.sort⟩

/-- **C85** for a real encoded GA with one objective, the `Uniform` mutation with a rate strictly between 0 and 1, and `KeepBest` or `Elitism` with fewer elites than candidates: for every chromosome `x` that
the mutation can produce, the probability that `solve` returns a solution at least as good as `x` tends to one as the number of generations grows. -/
theorem C85_real {env : GaEnv R K A S V} (bounds : List (GeneBounds R)) (hlen : bounds.length < 65536) (hr : UsesKeepBest env ∨ ∃ m, m < env.popSize ∧ UsesElitismOf env m)
    {prev : GaState R (FVec K) A V} {initial : List (Cand R (FVec K))} (hu : KeepsLength env initial bounds.length) {I J : A → List (FVec K) → Prop} (h : ExactRun env prev initial I J)
    (hc : CompleteRun env I) (p : ℝ) (h0 : 0 < p) (h1 : p < 1) (N : Nat) (hN : 0 < N) (many : Nat → Bool) (x : List R) (hx : OnGrid bounds x)
    (hrep : ∀ r, env.repair = some r → r x = x) (hs : NeverStops env) :
    Tendsto (fun n => drawProb (realLaw bounds.length p N many) (n * env.popSize) (fun draws => Finds (withMutations { env with maxGen := n + 1 } (realOp bounds many) draws) prev initial x))
      atTop (nhds 1) := by
  have hprob := realLaw_prob bounds.length hlen p h0 h1 N hN many
  obtain ⟨k, hk0, hk, hret, hkp⟩ : ∃ k, 0 < k ∧ k ≤ env.popSize ∧ RetainsChildren env k ∧ KeepsParents env := by
    rcases hr with hr | ⟨m, hm, hr⟩
    · obtain ⟨r1, r2⟩ := KeepsBest.retains hr.keeps
      exact ⟨env.popSize, hr.positive, le_rfl, r1, r2⟩
    · obtain ⟨r1, r2⟩ := hr.retains
      exact ⟨env.popSize - m, by omega, by omega, r1, r2⟩
  refine C85_converges (realLaw bounds.length p N many) h hc (realOp bounds many) _ (length_domain bounds hu many) x hrep (realChance bounds.length p N) ?_
    (fun c hc => realLaw_hit bounds hlen p N many c x hc hx) k hk0 hk hret hs (Or.inr hkp)
  unfold realChance
  exact ENNReal.mul_pos (by rw [ne_eq, ENNReal.inv_eq_zero]; exact ENNReal.natCast_ne_top _) (flipChance_pos _ p h0 h1 N hN).ne'
end

/-! ### The chromosomes that the mutation can produce -/

/-- Every chromosome within the bounds is close to one that the mutation can produce. -/
theorem grid_dense {R : Type} [Field R] [LinearOrder R] [IsStrictOrderedRing R] [FloorRing R] (bounds : List (GeneBounds R)) (y : List R) (hy : InBox bounds y) :
    ∃ x, OnGrid bounds x ∧ InBox bounds x ∧ ∀ (i : Nat) b v w, bounds[i]? = some b → x[i]? = some v → y[i]? = some w → v ≤ w ∧ w - v ≤ (b.upper - b.lower) / 2 ^ 53 := by
  induction hy with
  | nil => exact ⟨[], .nil, .nil, fun i b v w h => by simp at h⟩
  | @cons b w bounds y hb _ ih =>
    obtain ⟨x, h1, h2, h3⟩ := ih
    obtain ⟨hlo, hhi⟩ := hb
    have hP : (0 : R) < 2 ^ 53 := by positivity
    obtain ⟨k, hk, hk1, hk2⟩ : ∃ k : Nat, k < 2 ^ 53 ∧ b.lower + (b.upper - b.lower) * ((k : R) / 2 ^ 53) ≤ w ∧ w - (b.lower + (b.upper - b.lower) * ((k : R) / 2 ^ 53)) ≤ (b.upper - b.lower) / 2 ^ 53 := by
      rcases eq_or_lt_of_le hhi with he | hlt
      · -- the upper bound
        refine ⟨2 ^ 53 - 1, by norm_num, ?_, ?_⟩
        · have hc : (((2 ^ 53 - 1 : Nat)) : R) / 2 ^ 53 ≤ 1 := by
            rw [div_le_one hP]
            push_cast [Nat.one_le_two_pow]
            linarith
          nlinarith [sub_nonneg.mpr (hlo.trans hhi)]
        · have hc : (((2 ^ 53 - 1 : Nat)) : R) / 2 ^ 53 = 1 - 1 / 2 ^ 53 := by
            push_cast [Nat.one_le_two_pow]
            field_simp
            norm_num
          rw [hc, he]
          apply le_of_eq
          ring
      · have hd : 0 < b.upper - b.lower := by linarith
        have ht0 : 0 ≤ (w - b.lower) / (b.upper - b.lower) * 2 ^ 53 := mul_nonneg (div_nonneg (by linarith) hd.le) hP.le
        refine ⟨⌊(w - b.lower) / (b.upper - b.lower) * 2 ^ 53⌋₊, ?_, ?_, ?_⟩
        · rw [Nat.floor_lt ht0]
          have : (w - b.lower) / (b.upper - b.lower) < 1 := by rw [div_lt_one hd]; linarith
          push_cast
          nlinarith
        · have hfl := Nat.floor_le ht0
          have : (⌊(w - b.lower) / (b.upper - b.lower) * 2 ^ 53⌋₊ : R) / 2 ^ 53 ≤ (w - b.lower) / (b.upper - b.lower) := by rw [div_le_iff₀ hP]; exact hfl
          have := mul_le_mul_of_nonneg_left this hd.le
          rw [mul_div_cancel₀ _ hd.ne'] at this
          linarith
        · have hfl := Nat.lt_floor_add_one ((w - b.lower) / (b.upper - b.lower) * 2 ^ 53)
          have : (w - b.lower) / (b.upper - b.lower) ≤ ((⌊(w - b.lower) / (b.upper - b.lower) * 2 ^ 53⌋₊ : R) + 1) / 2 ^ 53 := by rw [le_div_iff₀ hP]; exact hfl.le
          have := mul_le_mul_of_nonneg_left this hd.le
          rw [mul_div_cancel₀ _ hd.ne', add_div, mul_add, mul_one_div] at this
          linarith
    have hin : b.lower ≤ b.lower + (b.upper - b.lower) * ((k : R) / 2 ^ 53) := by
      have : 0 ≤ (b.upper - b.lower) * ((k : R) / 2 ^ 53) := mul_nonneg (by linarith) (by positivity)
      linarith
    refine ⟨(b.lower + (b.upper - b.lower) * ((k : R) / 2 ^ 53)) :: x, .cons ⟨k, hk, rfl⟩ h1, .cons ⟨hin, hk1.trans hhi⟩ h2, ?_⟩
    intro i b' v w' hb' hv hw'
    cases i with
    | zero =>
      simp only [List.getElem?_cons_zero, Option.some.injEq] at hb' hv hw'
      subst hb' hv hw'
      exact ⟨hk1, hk2⟩
    | succ i => exact h3 i b' v w' (by simpa using hb') (by simpa using hv) (by simpa using hw')

/-- **C85** for real genes: for every chromosome `y` within the bounds, the probability that `solve` returns a solution at least as good as some chromosome next to `y` tends to one: the genes differ by at most
the width of their interval divided by `2^53`. -/
theorem C85_real_near {R K A S V : Type} [Field R] [LinearOrder R] [IsStrictOrderedRing R] [FloorRing R] [CommRing K] [LinearOrder K] [IsStrictOrderedRing K] {env : GaEnv R K A S V}
    (bounds : List (GeneBounds R)) (hlen : bounds.length < 65536) (hr : UsesKeepBest env ∨ ∃ m, m < env.popSize ∧ UsesElitismOf env m)
    {prev : GaState R (FVec K) A V} {initial : List (Cand R (FVec K))} (hu : KeepsLength env initial bounds.length) {I J : A → List (FVec K) → Prop} (h : ExactRun env prev initial I J)
    (hc : CompleteRun env I) (p : ℝ) (h0 : 0 < p) (h1 : p < 1) (N : Nat) (hN : 0 < N) (many : Nat → Bool) (y : List R) (hy : InBox bounds y) (hrep : env.repair = none) (hs : NeverStops env) :
    ∃ x, InBox bounds x ∧ (∀ (i : Nat) b v w, bounds[i]? = some b → x[i]? = some v → y[i]? = some w → v ≤ w ∧ w - v ≤ (b.upper - b.lower) / 2 ^ 53) ∧
      Tendsto (fun n => drawProb (realLaw bounds.length p N many) (n * env.popSize) (fun draws => Finds (withMutations { env with maxGen := n + 1 } (realOp bounds many) draws) prev initial x))
        atTop (nhds 1) := by
  obtain ⟨x, hx, hb, hn⟩ := grid_dense bounds y hy
  exact ⟨x, hb, hn, C85_real bounds hlen hr hu h hc p h0 h1 N hN many x hx (fun r hr => by rw [hrep] at hr; cases hr) hs⟩

/-! ### A case that meets the assumptions -/

/-- A GA over two rational genes, with `KeepBest`. -/
def demoQ : GaEnv ℚ ℤ Unit Unit (FVec ℤ) :=
  { demoEnv ℚ exactEq (fun x => [.fin ⌊4 * x.sum⌋]) (fun _ => [0, 1 / 2]) (fun _ _ c => c.chrom) (fun l => l.insertionSort (fun a b => a.chrom ≤ b.chrom)) false 0 4 with
    numObj := 1
    algNext := demoElitism.algNext }

theorem demoQ_uses : UsesKeepBest demoQ where
  single := rfl
  positive := by decide
  tol := rfl
  select := fun _ _ _ k _ _ => Nat.mod_lt _ (by decide)
  replace := fun a all g hl hm => Or.inr (demoElitism_keeps a all g hl hm)
  optimal := fun _ => rfl
  keepBest := demoElitism_keeps

theorem demoQ_run : ExactRun demoQ (demoPrev ℚ) [] (fun _ _ => True) (fun a fmat => ∃ a0, a = demoQ.algPrepare a0 fmat) :=
  ⟨demoQ_uses.contract, rfl, fun _ => rfl, fun h => (by cases h), (by simp), ⟨_, FifoCache.repr_init 0 0⟩⟩

theorem demoQ_complete : CompleteRun demoQ (fun _ _ => True) where
  evalSched := (demo_complete false 0 4).evalSched
  mergeSched := (demo_complete false 0 4).mergeSched
  tol := rfl
  optimal := fun _ _ _ _ _ => Or.inl rfl
  sort := fun l => by
    refine ⟨List.perm_insertionSort _ l, ?_⟩
    have ht : IsTrans (Cand ℚ (FVec ℤ)) (fun a b => a.chrom ≤ b.chrom) := ⟨fun _ _ _ h1 h2 => le_trans h1 h2⟩
    have htot : Std.Total (fun a b : Cand ℚ (FVec ℤ) => a.chrom ≤ b.chrom) := ⟨fun a b => le_total _ _⟩
    exact (List.pairwise_insertionSort (fun a b : Cand ℚ (FVec ℤ) => a.chrom ≤ b.chrom) l).imp (fun h => not_lt.mpr h)

theorem demoQ_length : KeepsLength demoQ [] 2 := ⟨fun _ => rfl, fun _ _ _ _ h1 h2 => ⟨h1, h2⟩, by simp, fun r h => (by cases h), fun l c h => (List.perm_insertionSort _ l).mem_iff.mp h⟩

-- a solution as good as `[3 / 4, 2]` is found, if the run is long enough; the genes are between 0 and 1, and between -2 and 6
example : Tendsto (fun n => drawProb (realLaw 2 (1 / 5) 1 (fun _ => false)) (n * 2) (fun draws =>
    Finds (withMutations { demoQ with maxGen := n + 1 } (realOp [⟨0, 1⟩, ⟨-2, 6⟩] (fun _ => false)) draws) (demoPrev ℚ) [] [3 / 4, 2])) atTop (nhds 1) :=
  C85_real [⟨0, 1⟩, ⟨-2, 6⟩] (by decide) (Or.inl demoQ_uses) demoQ_length demoQ_run demoQ_complete (1 / 5) (by norm_num) (by norm_num) 1 (by decide) _ [3 / 4, 2]
    (.cons ⟨3 * 2 ^ 51, by norm_num, by norm_num⟩ (.cons ⟨2 ^ 52, by norm_num, by norm_num⟩ .nil)) (fun r h => by cases h) (fun _ _ => rfl)

end Gapp.Props
