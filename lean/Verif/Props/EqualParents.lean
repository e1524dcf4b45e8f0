import Verif.Props.Crossover
import Verif.Props.RealCrossover
import Verif.Props.Float
import Verif.Model.DoubleOps
import Verif.Proofs.Double
/-!
# C96: crossovers of equal parents

`Crossover::operator()` returns copies of the parents without calling the crossover method if the parents have the same chromosomes. The comment in
crossover_base.impl.hpp:28-33 says why this is allowed: the children would be the same as the parents, for every crossover method of the library.
-/

namespace Gapp.Model

open Gapp.Spec

variable {α : Type}

theorem exchanged_self {p c1 c2 : List α} {X : Nat → Prop} (h : Exchanged p p X c1 c2) : c1 = p ∧ c2 = p := by
  have key : ∀ i : Nat, c1[i]? = p[i]? ∧ c2[i]? = p[i]? := by
    intro i
    by_cases hi : i < p.length
    · by_cases hX : X i
      · exact h.exchanged i hi hX
      · exact h.kept i hi hX
    · have h1 := h.length1
      have h2 := h.length2
      rw [List.getElem?_eq_none (l := p) (by omega), List.getElem?_eq_none (l := c1) (by omega), List.getElem?_eq_none (l := c2) (by omega)]
      exact ⟨rfl, rfl⟩
  exact ⟨List.ext_getElem? fun i => (key i).1, List.ext_getElem? fun i => (key i).2⟩

theorem split_range (p : List α) (first last : Nat) (h1 : first ≤ last) : p = p.take first ++ genesIn p first last ++ p.drop last := by
  unfold genesIn
  have : p.take first = (p.take last).take first := by rw [List.take_take, Nat.min_eq_left h1]
  rw [this, List.take_append_drop, List.take_append_drop]

section
variable [DecidableEq α]

theorem range_filters {p : List α} (hn : p.Nodup) (first last : Nat) (h1 : first ≤ last) :
    (p.take first).filter (fun g => decide (g ∉ genesIn p first last)) = p.take first ∧
    (genesIn p first last).filter (fun g => decide (g ∉ genesIn p first last)) = [] ∧
    (p.drop last).filter (fun g => decide (g ∉ genesIn p first last)) = p.drop last := by
  have hs := split_range p first last h1
  rw [hs, List.nodup_append, List.nodup_append] at hn
  obtain ⟨⟨_, _, hd⟩, _, hd'⟩ := hn
  refine ⟨List.filter_eq_self.mpr fun g hg => ?_, List.filter_eq_nil_iff.mpr fun g hg => by simpa using hg, List.filter_eq_self.mpr fun g hg => ?_⟩
  · simp only [decide_eq_true_eq]
    exact fun h => hd g hg g h rfl
  · simp only [decide_eq_true_eq]
    exact fun h => hd' g (List.mem_append_right _ h) g hg rfl

theorem order1_self {p : List α} (hn : p.Nodup) (first last : Nat) (h1 : first ≤ last) : IsOrder1Child p p first last p := by
  obtain ⟨e1, e2, e3⟩ := range_filters hn first last h1
  refine ⟨List.Perm.refl _, ⟨rfl, fun _ _ _ => rfl⟩, ?_⟩
  have ht : p.take last = p.take first ++ genesIn p first last := by
    unfold genesIn
    have : p.take first = (p.take last).take first := by rw [List.take_take, Nat.min_eq_left h1]
    rw [this, List.take_append_drop]
  rw [ht, List.filter_append, List.filter_append, e1, e2, e3, List.append_nil]

theorem order2_self {p : List α} (hn : p.Nodup) (first last : Nat) (h1 : first ≤ last) : IsOrder2Child p p first last p := by
  obtain ⟨e1, e2, e3⟩ := range_filters hn first last h1
  refine ⟨List.Perm.refl _, ⟨rfl, fun _ _ _ => rfl⟩, ?_⟩
  have hs := split_range p first last h1
  have : p.filter (fun g => decide (g ∉ genesIn p first last)) =
      (p.take first ++ genesIn p first last ++ p.drop last).filter (fun g => decide (g ∉ genesIn p first last)) := by rw [← hs]
  rw [this, List.filter_append, List.filter_append, e1, e2, e3, List.append_nil]

theorem position_self {p : List α} (hn : p.Nodup) (indices : List Nat) : IsPositionChild p p indices p := by
  refine ⟨List.Perm.refl _, fun _ _ => rfl, ?_⟩
  have hz : p = p.zipIdx.map (·.1) := by simp
  have e : p.filter (fun g => decide (g ∈ genesOutside p indices)) =
      (p.zipIdx.filter (fun x => decide (x.1 ∈ genesOutside p indices))).map (·.1) := by
    conv_lhs => rw [hz, List.filter_map]
    rw [← hz]
    rfl
  rw [e]
  unfold genesOutside
  congr 1
  apply List.filter_congr
  intro x hx
  rw [decide_eq_decide]
  constructor
  · intro h
    exact List.mem_map_of_mem (List.mem_filter.mpr ⟨hx, by simpa using h⟩)
  · intro h
    obtain ⟨y, hy, hyx⟩ := List.mem_map.mp h
    obtain ⟨hy1, hy2⟩ := List.mem_filter.mp hy
    have hx' := List.mem_zipIdx_iff_getElem?.mp hx
    have hy' := List.mem_zipIdx_iff_getElem?.mp hy1
    rw [hyx] at hy'
    have : x.2 = y.2 := by
      obtain ⟨a1, a2⟩ := List.getElem?_eq_some_iff.mp hx'
      obtain ⟨b1, b2⟩ := List.getElem?_eq_some_iff.mp hy'
      exact (List.Nodup.getElem_inj_iff hn).mp (a2.trans b2.symm)
    rw [this]
    simpa using hy2

theorem pmx_self {p : List α} (first last : Nat) : IsPmxChild p p first last p := by
  refine ⟨List.Perm.refl _, ⟨rfl, fun _ _ _ => rfl⟩, fun _ _ _ _ => rfl, fun i g h1 h2 hg hn => absurd ?_ hn⟩
  unfold genesIn
  rw [List.mem_iff_getElem?]
  refine ⟨i - first, ?_⟩
  rw [List.getElem?_drop, List.getElem?_take, show first + (i - first) = i by omega, if_pos h2]
  exact hg

end

theorem getElem?_inj_of_nodup {p : List α} (hn : p.Nodup) {i j : Nat} {x : α} (hi : p[i]? = some x) (hj : p[j]? = some x) : i = j := by
  obtain ⟨a1, a2⟩ := List.getElem?_eq_some_iff.mp hi
  obtain ⟨b1, b2⟩ := List.getElem?_eq_some_iff.mp hj
  exact (List.Nodup.getElem_inj_iff hn).mp (a2.trans b2.symm)

theorem adjacent_nodup {p : List α} (hn : p.Nodup) {i : Nat} {x y : α} (hx : p[i]? = some x) (h : Adjacent p x y) :
    p[i + 1]? = some y ∨ ∃ j, j + 1 = i ∧ p[j]? = some y := by
  obtain ⟨j, ⟨h1, h2⟩ | ⟨h1, h2⟩⟩ := h
  · rw [getElem?_inj_of_nodup hn hx h1]; exact Or.inl h2
  · exact Or.inr ⟨j, (getElem?_inj_of_nodup hn h2 hx), h1⟩

theorem mem_take_iff {p : List α} (hn : p.Nodup) {i n : Nat} {x : α} (hx : p[i]? = some x) : x ∈ p.take n ↔ i < n := by
  constructor
  · intro h
    obtain ⟨j, hj⟩ := List.mem_iff_getElem?.mp h
    rw [List.getElem?_take] at hj
    split at hj
    · rw [getElem?_inj_of_nodup hn hx hj]; assumption
    · cases hj
  · intro h
    refine List.mem_iff_getElem?.mpr ⟨i, ?_⟩
    rw [List.getElem?_take, if_pos h]; exact hx

open Classical in
/-- The only permutation that edge crossover can make of two equal parents is this parent. -/
theorem edge_self {p child : List α} (hn : p.Nodup) (F : List α → α → Prop) (hF : ∀ used d, F used d → d ∈ p ∧ d ∉ used)
    (h : IsEdgeChild p p F child) : child = p := by
  obtain ⟨hperm, h0, hstep⟩ := h
  have hlen := hperm.length_eq
  have key : ∀ t, t ≤ p.length → child.take t = p.take t := by
    intro t
    induction t with
    | zero => intro _; rfl
    | succ t ih =>
      intro ht
      have ih := ih (by omega)
      rw [List.take_succ, List.take_succ, ih]
      congr 2
      cases t with
      | zero => exact h0
      | succ t =>
        have hlast : p[t]? = some p[t] := List.getElem?_eq_getElem (by omega)
        have hnext : p[t + 1]? = some p[t + 1] := List.getElem?_eq_getElem (by omega)
        have hclast : child[t]? = some p[t] := by
          have : (child.take (t + 1))[t]? = (p.take (t + 1))[t]? := by rw [ih]
          rw [List.getElem?_take, List.getElem?_take, if_pos (by omega), if_pos (by omega)] at this
          rw [this]; exact hlast
        have hcnext : child[t + 1]? = some (child[t + 1]'(by omega)) := List.getElem?_eq_getElem _
        obtain ⟨d, hd, hc1, hc2, hc3⟩ := hstep t _ _ hclast hcnext
        rw [ih] at hd hc1 hc2 hc3
        generalize child[t + 1]'(by omega) = next at *
        rw [hcnext, hnext]
        have hun : UnusedNeighbour p p (p.take (t + 1)) p[t] p[t + 1] :=
          ⟨Or.inl ⟨t, Or.inl ⟨hlast, hnext⟩⟩, fun hm => by have := (mem_take_iff hn hnext).mp hm; omega⟩
        by_cases hnu : UnusedNeighbour p p (p.take (t + 1)) p[t] next
        · have hadj : Adjacent p p[t] next := by rcases hnu.1 with h | h <;> exact h
          rcases adjacent_nodup hn hlast hadj with h | ⟨j, hj, h⟩
          · rw [← h, hnext]
          · exact absurd ((mem_take_iff hn h).mpr (by omega)) hnu.2
        · exfalso
          have hlt := hc3 hnu _ hun
          have hnd : next = d := hc1.resolve_left hnu
          obtain ⟨hdp, hdu⟩ := hF _ _ hd
          obtain ⟨j, hj⟩ := List.mem_iff_getElem?.mp hdp
          have hjt : t + 1 ≤ j := by
            by_contra hcon
            exact hdu ((mem_take_iff hn hj).mpr (by omega))
          have hne : j ≠ t + 1 := by
            rintro rfl
            rw [hnext] at hj
            cases hj
            exact hnu (hnd ▸ hun)
          have hjl : j < p.length := (List.getElem?_eq_some_iff.mp hj).1
          have hprev : p[j - 1]? = some p[j - 1] := List.getElem?_eq_getElem (by omega)
          have hdeg : 0 < unusedDegree p p (p.take (t + 1)) d := by
            unfold unusedDegree
            refine List.length_pos_of_mem (List.mem_filter.mpr ⟨List.mem_of_getElem? hprev, ?_⟩)
            rw [decide_eq_true_eq]
            refine ⟨Or.inl ⟨j - 1, Or.inr ⟨hprev, ?_⟩⟩, fun hm => ?_⟩
            · rw [show j - 1 + 1 = j by omega]; exact hj
            · have := (mem_take_iff hn hprev).mp hm; omega
          have hdeg' : unusedDegree p p (p.take (t + 1)) p[t + 1] ≤ 1 := by
            unfold unusedDegree
            have hall : ∀ y ∈ p.filter (fun y => decide (UnusedNeighbour p p (p.take (t + 1)) p[t + 1] y)), p[t + 2]? = some y := by
              intro y hy
              obtain ⟨_, hy⟩ := List.mem_filter.mp hy
              rw [decide_eq_true_eq] at hy
              have hadj : Adjacent p p[t + 1] y := by rcases hy.1 with h | h <;> exact h
              rcases adjacent_nodup hn hnext hadj with h | ⟨k, hk, h⟩
              · exact h
              · exact absurd ((mem_take_iff hn h).mpr (by omega)) hy.2
            cases he : p[t + 2]? with
            | none =>
              have : p.filter (fun y => decide (UnusedNeighbour p p (p.take (t + 1)) p[t + 1] y)) = [] := by
                rw [List.eq_nil_iff_forall_not_mem]
                intro y hy
                have := hall y hy
                rw [he] at this; cases this
              rw [this]; simp
            | some z =>
              have hsub : p.filter (fun y => decide (UnusedNeighbour p p (p.take (t + 1)) p[t + 1] y)) ⊆ [z] := by
                intro y hy
                have := hall y hy
                rw [he] at this; cases this; simp
              exact (List.subperm_of_subset (hn.filter _) hsub).length_le
          omega
  have := key p.length (Nat.le_refl _)
  rwa [List.take_of_length_le (by omega), List.take_length] at this

end Gapp.Model

namespace Gapp.Props

open Gapp.Model Gapp.Spec

/-- C96: the crossovers of the binary and integer encodings return the parents if these are equal, whatever is drawn. -/
theorem C96_pointwise {α : Type} (p : List α) :
    (∀ point, opSinglePoint p p point = some (p, p)) ∧ (∀ a b, opTwoPoint p p a b = some (p, p)) ∧
    (∀ draw, opNPoint p p draw = some (p, p)) ∧ (∀ draw, opUniform p p draw = some (p, p)) := by
  obtain ⟨h1, h2, h3, h4⟩ := C12_operators p p rfl
  refine ⟨fun a => ?_, fun a b => ?_, fun a => ?_, fun a => ?_⟩
  · obtain ⟨X, c1, c2, e, h⟩ := h1 a; rw [e, (exchanged_self h).1, (exchanged_self h).2]
  · obtain ⟨X, c1, c2, e, h⟩ := h2 a b; rw [e, (exchanged_self h).1, (exchanged_self h).2]
  · obtain ⟨X, c1, c2, e, h⟩ := h3 a; rw [e, (exchanged_self h).1, (exchanged_self h).2]
  · obtain ⟨X, c1, c2, e, h⟩ := h4 a; rw [e, (exchanged_self h).1, (exchanged_self h).2]

/-- C96: the crossovers of the permutation encoding return the parents if these are equal, whatever is drawn. -/
theorem C96_permutation (p : List Nat) (hp : IsIntPerm p) :
    (∀ draw, permOrder1 p p draw = some (p, p)) ∧ (∀ draw, permOrder2 p p draw = some (p, p)) ∧
    (∀ draw, permPosition p p draw = some (p, p)) ∧ permCycle p p = some (p, p) ∧ permEdge p p = some (p, p) ∧
    (∀ draw, permPmx p p draw = some (p, p)) := by
  have hpp : PermParents p p := IsIntPerm.permParents hp hp rfl
  have hn : p.Nodup := hpp.1
  by_cases h2 : p.length < 2
  · refine ⟨fun d => ?_, fun d => ?_, fun d => ?_, ?_, ?_, fun d => ?_⟩
    · unfold permOrder1; rw [dif_pos h2]
    · unfold permOrder2; rw [dif_pos h2]
    · unfold permPosition; rw [if_pos h2]
    · unfold permCycle; rw [if_pos h2]
    · unfold permEdge; rw [if_pos h2]
    · unfold permPmx; rw [dif_pos h2]
  · have h2' : 2 ≤ p.length := Nat.le_of_not_lt h2
    have hle : ∀ d : RangeDraw p.length, d.first + d.length ≤ p.length := by
      intro d; have := d.length_ok; have := d.first_ok; omega
    refine ⟨fun d => ?_, fun d => ?_, fun d => ?_, ?_, ?_, fun d => ?_⟩
    · obtain ⟨⟨c1, c2, e, _, _, h⟩, _⟩ := C13_operators p p hp hp rfl d
      obtain ⟨g1, g2⟩ := h h2'
      have hu := (C13_overloads_agree p p hp hp rfl (d h2').first ((d h2').first + (d h2').length) (by omega) (hle _)).2.2.1
      have hs := order1_self hn (d h2').first ((d h2').first + (d h2').length) (by omega)
      rw [e, hu _ _ g1 hs, hu _ _ g2 hs]
    · obtain ⟨_, c1, c2, e, _, _, h⟩ := C13_operators p p hp hp rfl d
      obtain ⟨g1, g2⟩ := h h2'
      have hu := (C13_overloads_agree p p hp hp rfl (d h2').first ((d h2').first + (d h2').length) (by omega) (hle _)).2.2.2
      have hs := order2_self hn (d h2').first ((d h2').first + (d h2').length) (by omega)
      rw [e, hu _ _ g1 hs, hu _ _ g2 hs]
    · obtain ⟨c1, c2, e, _, _, h⟩ := (C14_overloads_and_operator p p hp hp rfl).2 d
      obtain ⟨g1, g2⟩ := h h2'
      obtain ⟨c, _, _, hu⟩ := C14_position p p hpp d.idxs d.lt
      have hs := hu _ (position_self hn d.idxs)
      rw [e, hu _ g1, hu _ g2, ← hs]
    · obtain ⟨_, c1, c2, e, _, _, h⟩ := C15_overloads_and_operator p p hp hp rfl
      obtain ⟨g1, g2⟩ := exchanged_self (h h2')
      rw [e, g1, g2]
    · obtain ⟨c1, c2, e, _, _, h⟩ := C16_operator_partial p p hp hp rfl
      obtain ⟨g1, g2⟩ := h h2'
      have hF : ∀ used d, SmallestUnused p used d → d ∈ p ∧ d ∉ used := fun _ _ h => ⟨h.1, h.2.1⟩
      rw [e, edge_self hn _ hF g1, edge_self hn _ hF g2]
    · obtain ⟨c1, c2, e, _, _, h⟩ := (C17_overloads_and_operator p p hp hp rfl).2 d
      obtain ⟨g1, g2⟩ := h h2'
      obtain ⟨c, _, _, hu⟩ := C17_pmx p p hpp (d h2').first ((d h2').first + (d h2').length) (by omega) (hle _)
      have hs := hu _ (pmx_self _ _)
      rw [e, hu _ g1, hu _ g2, ← hs]

section
variable {K : Type} [Field K] [LinearOrder K] [IsStrictOrderedRing K]

theorem stdClamp_of_mem {lo hi x : K} (h1 : lo ≤ x) (h2 : x ≤ hi) : stdClamp x lo hi = x := by
  unfold stdClamp
  rw [if_neg (not_lt.mpr h1), if_neg (not_lt.mpr h2)]

theorem geneLoop_self (gene : Nat → GeneBounds K → K → K → K × K)
    (hg : ∀ i (b : GeneBounds K) x, b.lower ≤ x → x ≤ b.upper → gene i b x x = (x, x)) (bounds : List (GeneBounds K)) (p : List K)
    (hp : LegalGenes bounds p) : geneLoop gene 0 bounds p p = some (p, p) := by
  obtain ⟨c1, c2, e, l1, l2, h⟩ := geneLoop_ok gene bounds 0 p p hp.1 hp.1
  have key : ∀ i : Nat, c1[i]? = p[i]? ∧ c2[i]? = p[i]? := by
    intro i
    have hpl := hp.1
    by_cases hi : i < bounds.length
    · have hb : bounds[i]? = some bounds[i] := List.getElem?_eq_getElem hi
      have hx : p[i]? = some (p[i]'(by omega)) := List.getElem?_eq_getElem _
      obtain ⟨a1, a2⟩ := hp.2 i _ _ hb hx
      have := h i _ _ _ hb hx hx
      rw [hg _ _ _ a1 a2] at this
      rw [this.1, this.2, hx]
      exact ⟨rfl, rfl⟩
    · rw [List.getElem?_eq_none (l := p) (by omega), List.getElem?_eq_none (l := c1) (by omega), List.getElem?_eq_none (l := c2) (by omega)]
      exact ⟨rfl, rfl⟩
  rw [e, List.ext_getElem? fun i => (key i).1, List.ext_getElem? fun i => (key i).2]

/-- C96: the crossovers of the real encoding return the parents if these are equal, whatever is drawn. Part of the property: exact arithmetic. -/
theorem C96_real_partial (t : Tol K) (ht : t.Valid) (bounds : List (GeneBounds K)) (p : List K) (hp : LegalGenes bounds p) :
    (∀ alpha, arithmeticCrossover alpha bounds p p = some (p, p)) ∧
    (∀ alpha draws, blxCrossover alpha draws bounds p p = some (p, p)) ∧
    (∀ pow eta draws, sbxCrossover t pow eta draws bounds p p = some (p, p)) ∧
    (∀ w1 w2 (parent1 parent2 : Cand K (FVec K)), parent1.chrom = p → parent2.chrom = p →
      wrightCrossover t w1 w2 bounds parent1 parent2 = some (p, p)) := by
  refine ⟨fun alpha => ?_, fun alpha draws => ?_, fun pow eta draws => ?_, fun w1 w2 q1 q2 e1 e2 => ?_⟩
  · apply geneLoop_self _ _ _ _ hp
    intro i b x h1 h2
    have e1 : alpha * x + (1 - alpha) * x = x := by ring
    have e2 : (1 - alpha) * x + alpha * x = x := by ring
    simp only [e1, e2, stdClamp_of_mem h1 h2]
  · apply geneLoop_self _ _ _ _ hp
    intro i b x h1 h2
    simp only [lt_irrefl, if_false, sub_self, mul_zero, sub_zero, add_zero, realBetween, zero_mul, stdClamp_of_mem h1 h2]
  · apply geneLoop_self _ _ _ _ hp
    intro i b x h1 h2
    simp only [lt_irrefl, if_false, (C06_float_comparison_laws ht (.fin x) (.fin x) (.fin x) (.fin x) (.fin x)).1, if_true]
  · unfold wrightCrossover
    have c1 : (if paretoCompareLess t q1.fitness q2.fitness then q2 else q1).chrom = p := by split <;> assumption
    have c2 : (if paretoCompareLess t q1.fitness q2.fitness then q1 else q2).chrom = p := by split <;> assumption
    simp only [c1, c2]
    apply geneLoop_self _ _ _ _ hp
    intro i b x h1 h2
    simp only [sub_self, mul_zero, zero_add, stdClamp_of_mem h1 h2]

end

theorem roundD_self {x : ℚ} (h : IsDouble x) : roundD x = .fin x :=
  roundD_fin_iff.2 ⟨(roundQ_of_binary53 h.1).symm, by rw [roundQ_of_binary53 h.1]; exact h.2⟩

theorem isDouble_zero' : IsDouble 0 := ⟨⟨0, 0, by norm_num, by norm_num, by norm_num⟩, by norm_num⟩

theorem dbl_sub_self (x : ℚ) : Dbl.sub (.fin x) (.fin x) = .fin 0 := by
  show roundD (x + -x) = _
  rw [add_neg_cancel, roundD_self isDouble_zero']

theorem dbl_mulAdd_zero (fused : Bool) (a : ℚ) {x : ℚ} (h : IsDouble x) : Dbl.mulAdd fused (.fin a) (.fin 0) (.fin x) = .fin x := by
  cases fused
  · show Dbl.add (.fin x) (roundD (a * 0)) = _
    rw [mul_zero, roundD_self isDouble_zero']
    show roundD (x + 0) = _
    rw [add_zero, roundD_self h]
  · show roundD (x + a * 0) = _
    rw [mul_zero, add_zero, roundD_self h]

theorem dbl_zero_mulAdd (fused : Bool) (a : ℚ) {x : ℚ} (h : IsDouble x) : Dbl.mulAdd fused (.fin 0) (.fin a) (.fin x) = .fin x := by
  cases fused
  · show Dbl.add (.fin x) (roundD (0 * a)) = _
    rw [zero_mul, roundD_self isDouble_zero']
    show roundD (x + 0) = _
    rw [add_zero, roundD_self h]
  · show roundD (x + 0 * a) = _
    rw [zero_mul, add_zero, roundD_self h]

theorem dbl_clamp_inside {lo hi x : ℚ} (h1 : lo ≤ x) (h2 : x ≤ hi) : Dbl.clamp (.fin x) (.fin lo) (.fin hi) = .fin x := by
  unfold Dbl.clamp
  have e1 : Dbl.lt (.fin x) (.fin lo) = false := decide_eq_false (not_lt.mpr h1)
  have e2 : Dbl.lt (.fin hi) (.fin x) = false := decide_eq_false (not_lt.mpr h2)
  rw [e1, e2]
  rfl

theorem geneLoopD_self (gene : Nat → GeneBounds Dbl → Dbl → Dbl → Option (Dbl × Dbl))
    (hg : ∀ i lo hi x, IsDouble x → lo ≤ x → x ≤ hi → gene i ⟨.fin lo, .fin hi⟩ (.fin x) (.fin x) = some (.fin x, .fin x)) :
    ∀ (bounds : List (GeneBounds Dbl)) (p : List Dbl) (i : Nat), LegalDoubles bounds p → geneLoopD gene i bounds p p = some (p, p)
  | [], [], _, _ => rfl
  | [], _ :: _, _, h => by cases h.1
  | _ :: _, [], _, h => by cases h.1
  | b :: bs, x :: xs, i, h => by
    obtain ⟨lo, hi, rfl, q, rfl, hq, h1, h2⟩ := h.2 0 b x rfl rfl
    have ih := geneLoopD_self gene hg bs xs (i + 1) ⟨Nat.succ.inj h.1, fun j b g hb hg => h.2 (j + 1) b g hb hg⟩
    unfold geneLoopD
    rw [hg i lo hi q hq h1 h2, ih]
    rfl

/-- C96: in floating-point arithmetic, the other crossovers of the real encoding return exactly the parents if these are equal, whatever is drawn, for every
finite `alpha` of BLX-α, every comparison `eq` by which numbers are equal to themselves, and however products and sums are fused. -/
theorem C96_double_partial (bounds : List (GeneBounds Dbl)) (p : List Dbl) (hp : LegalDoubles bounds p) :
    (∀ fused (alpha : ℚ) draws, blxCrossoverD fused (.fin alpha) draws bounds p p = some (p, p)) ∧
    (∀ recip fused eq pow eta draws, (∀ x : ℚ, eq (.fin x) (.fin x) = true) → sbxCrossoverD recip fused eq pow eta draws bounds p p = some (p, p)) ∧
    (∀ fused less k1 k2, wrightCrossoverD fused less k1 k2 bounds p p = some (p, p)) := by
  refine ⟨fun fused alpha draws => ?_, fun recip fused eq pow eta draws heq => ?_, fun fused less k1 k2 => ?_⟩
  · refine geneLoopD_self _ ?_ bounds p 0 hp
    intro i lo hi x hx h1 h2
    have hlt : Dbl.lt (.fin x) (.fin x) = false := decide_eq_false (lt_irrefl x)
    have hle : Dbl.le (.fin x) (.fin x) = true := decide_eq_true le_rfl
    have hr : ∀ k, randomRealD fused (.fin x) (.fin x) k = some (.fin x) := by
      intro k
      unfold randomRealD
      rw [if_pos hle, dbl_sub_self]
      unfold unitReal
      rw [dbl_zero_mulAdd fused _ hx]
    have hneg : Dbl.neg (.fin alpha) = .fin (-alpha) := rfl
    simp only [hlt, Bool.false_eq_true, if_false, dbl_sub_self, hneg, dbl_mulAdd_zero fused _ hx, hr, Option.bind_eq_bind, Option.bind_some, Option.pure_def,
      dbl_clamp_inside h1 h2]
  · refine geneLoopD_self _ ?_ bounds p 0 hp
    intro i lo hi x hx h1 h2
    have hlt : Dbl.lt (.fin x) (.fin x) = false := decide_eq_false (lt_irrefl x)
    simp only [hlt, Bool.false_eq_true, if_false, heq, if_true]
  · unfold wrightCrossoverD
    simp only [ite_self]
    refine geneLoopD_self _ ?_ bounds p 0 hp
    intro i lo hi x hx h1 h2
    unfold unitReal
    simp only [dbl_sub_self, dbl_mulAdd_zero fused _ hx, dbl_clamp_inside h1 h2]

/-- C96: in floating-point arithmetic, the children of the arithmetic crossover of equal parents may differ from the parents by a rounding error: the gene
of the parents is `2 - 13 / 2^52`, and that of the first child `2 - 12 / 2^52`. Genes may even vanish: with weights 1/2, the children of the smallest
positive number are zeros. -/
theorem C96_arithmetic_rounding_violated :
    (∃ c2, arithmeticCrossoverD none 2504156031311868 [⟨.fin 0, .fin 2⟩] [.fin (2 - 13 / 2 ^ 52)] [.fin (2 - 13 / 2 ^ 52)] =
      some ([.fin (2 - 12 / 2 ^ 52)], c2)) ∧
    arithmeticCrossoverD none (2 ^ 52) [⟨.fin 0, .fin 2⟩] [.fin (1 / 2 ^ 1074)] [.fin (1 / 2 ^ 1074)] = some ([.fin 0], [.fin 0]) := by
  refine ⟨⟨[.fin (2 - 12 / 2 ^ 52)], ?_⟩, ?_⟩ <;> decide +kernel

/-- A permutation, and a chromosome of real genes within their bounds. -/
example : IsIntPerm [2, 0, 3, 1] := by unfold IsIntPerm; decide

example : permEdge [2, 0, 3, 1] [2, 0, 3, 1] = some ([2, 0, 3, 1], [2, 0, 3, 1]) := by decide

example : LegalGenes (K := ℚ) [⟨0, 3⟩, ⟨-1, 1⟩] [2, 1] := by
  refine ⟨rfl, fun i b g hb hg => ?_⟩
  match i with
  | 0 => cases hb; cases hg; norm_num
  | 1 => cases hb; cases hg; norm_num
  | i + 2 => cases hb

example : LegalDoubles [⟨.fin 0, .fin 3⟩] [.fin 2] := by
  refine ⟨rfl, fun i b g hb hg => ?_⟩
  match i with
  | 0 => cases hb; cases hg; exact ⟨0, 3, rfl, 2, rfl, ⟨⟨2, 0, by norm_num, by norm_num, by norm_num⟩,
    by rw [abs_of_pos (by norm_num)]; exact lt_of_lt_of_le (by norm_num : (2 : ℚ) < 2 ^ 2) (pow_le_pow_right₀ (by norm_num) (by norm_num))⟩, by norm_num, by norm_num⟩
  | i + 1 => cases hb

end Gapp.Props
