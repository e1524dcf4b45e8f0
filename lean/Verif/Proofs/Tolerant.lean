import Verif.Spec.Tolerant
import Verif.Spec.ParetoFront
import Verif.Proofs.TolMerge
/-! Proofs about comparisons with tolerances, and the sets of candidates merged with them. -/

namespace Gapp.Model
open Gapp.Spec Flt
variable {K : Type} [CommRing K] [LinearOrder K] [IsStrictOrderedRing K]

omit [IsStrictOrderedRing K] in
theorem ANG_iff (t : Tol K) (a b : Flt K) : floatIsLessAssumeNotGreater t a b = true ↔ GreaterBy t b a := by
  cases a <;> cases b <;> simp [floatIsLessAssumeNotGreater, GreaterBy, gt_iff_lt]
  rw [Tol.lt_at]; tauto

/-- `paretoCompareLess` decides whether a vector is beaten. -/
theorem less_iff_beats {t : Tol K} (ht : t.Valid) (a b : FVec K) : paretoCompareLess t a b = true ↔ Beats t b a := by
  rw [paretoCompareLess_iff]
  simp only [isLess_iff ht, ANG_iff, Beats]

theorem dominates_beats {t : Tol K} (ht : t.Valid) {a b : FVec K} (h : Dominates t b a) : Beats t b a :=
  (less_iff_beats ht a b).1 (dominates_imp_less ht h)

theorem greaterBy_lt {t : Tol K} (ht : t.Valid) {a b : Flt K} (h : GreaterBy t b a) : a < b := by
  cases a <;> cases b <;> simp_all [GreaterBy]
  have := ht.abs_nonneg
  linarith

theorem definitelyLess_greaterBy {t : Tol K} {a b : Flt K} (h : DefinitelyLess t a b) : GreaterBy t b a := by
  cases a <;> cases b <;> simp_all [GreaterBy, DefinitelyLess]

/-- The better the better one and the worse the worse one, the more `GreaterBy`. -/
theorem greaterBy_mono {t : Tol K} (ht : t.Valid) (hr : t.rel ≤ 1) {a a' b b' : Flt K} (h : GreaterBy t b a) (ha : a' ≤ a) (hb : b ≤ b') : GreaterBy t b' a' := by
  have h0 := greaterBy_lt ht h
  have h0' : a' < b' := lt_of_le_of_lt ha (lt_of_lt_of_le h0 hb)
  rcases a' with _ | a' | _ <;> rcases b' with _ | b' | _ <;> try (simp_all [GreaterBy]; done)
  rcases a with _ | a | _
  · exact absurd ha (not_le.2 ninf_lt_fin)
  · rcases b with _ | b | _
    · simp at h0
    · simp only [GreaterBy, fin_le_fin, gt_iff_lt] at *
      obtain ⟨h1, h3⟩ := h
      have hn := ht.rel_nonneg
      have hb' : t.rel * |b'| ≤ t.rel * |b| + (b' - b) := by
        have e : |b'| ≤ |b| + (b' - b) := by
          have := abs_add_le b (b' - b)
          rw [abs_of_nonneg (sub_nonneg.2 hb)] at this
          simpa using this
        have := mul_le_mul_of_nonneg_left e hn
        have h4 : t.rel * (b' - b) ≤ 1 * (b' - b) := mul_le_mul_of_nonneg_right hr (sub_nonneg.2 hb)
        rw [mul_add] at this
        linarith
      exact ⟨by linarith, by linarith⟩
    · exact absurd hb (not_le.2 fin_lt_pinf)
  · simp at h0

/-- What beats `b` beats everything that is nowhere better than `b`. -/
theorem beats_of_le {t : Tol K} (ht : t.Valid) (hr : t.rel ≤ 1) {a b c : FVec K} (hab : a.length = b.length) (h : Beats t c b)
    (hle : ∀ (i : Nat) (ha : i < a.length) (hb : i < b.length), a[i] ≤ b[i]) : Beats t c a := by
  refine ⟨fun i ha hc hd => ?_, ?_⟩
  · exact h.1 i (by omega) hc (definitelyLess_mono ht hr hd le_rfl (hle i ha (by omega)))
  · obtain ⟨i, hb, hc, hg⟩ := h.2
    exact ⟨i, by omega, hc, greaterBy_mono ht hr hg (hle i (by omega) hb) le_rfl⟩

theorem clearlyDominates_dominates {t : Tol K} (ht : t.Valid) {a b : FVec K} (h : ClearlyDominates t b a) : Dominates t b a :=
  ⟨fun i ha hb hd => absurd (definitelyLess_lt ht hd) (not_lt.2 (h.1 i ha hb)), h.2⟩

theorem clearlyDominates_exact {t : Tol K} (ht : t.Valid) {a b : FVec K} (h : ClearlyDominates t b a) : ExactDominates b a := by
  obtain ⟨i, ha, hb, hd⟩ := h.2
  exact ⟨h.1, i, ha, hb, definitelyLess_lt ht hd⟩

theorem clearlyDominates_beats {t : Tol K} (ht : t.Valid) {a b : FVec K} (h : ClearlyDominates t b a) : Beats t b a :=
  dominates_beats ht (clearlyDominates_dominates ht h)

/-! ### One objective -/

omit [IsStrictOrderedRing K] in
theorem dominates_one {t : Tol K} {a b : Flt K} (h : Dominates t [b] [a]) : DefinitelyLess t a b := by
  obtain ⟨i, ha, hb, hd⟩ := h.2
  obtain rfl : i = 0 := by simpa using ha
  exact hd

omit [IsStrictOrderedRing K] in
theorem beats_one {t : Tol K} {a b : Flt K} (h : Beats t [b] [a]) : GreaterBy t b a := by
  obtain ⟨i, ha, hb, hd⟩ := h.2
  obtain rfl : i = 0 := by simpa using ha
  exact hd

theorem one_dominates {t : Tol K} (ht : t.Valid) {a b : Flt K} (h : DefinitelyLess t a b) : Dominates t [b] [a] := by
  refine ⟨?_, 0, by simp, by simp, h⟩
  intro i ha hb hd
  obtain rfl : i = 0 := by simpa using ha
  exact lt_asymm (definitelyLess_lt ht h) (definitelyLess_lt ht hd)

theorem dominates_chain {t : Tol K} (ht : t.Valid) (hr : t.rel ≤ 1) {a b c : FVec K} (ha : a.length = 1) (hb : b.length = 1) (hc : c.length = 1)
    (h1 : Dominates t b a) (h2 : Beats t c b) : Dominates t c a := by
  obtain ⟨a, rfl⟩ := List.length_eq_one_iff.1 ha
  obtain ⟨b, rfl⟩ := List.length_eq_one_iff.1 hb
  obtain ⟨c, rfl⟩ := List.length_eq_one_iff.1 hc
  exact one_dominates ht (definitelyLess_mono ht hr (dominates_one h1) le_rfl (greaterBy_lt ht (beats_one h2)).le)

/-! ### Merging -/

section Merge
variable {α : Type}

/-- One step of a chain in the union of two sets. -/
def MergeRel (t : Tol K) (fitness : α → FVec K) (lhs rhs : List α) (a b : α) : Prop :=
  (a ∈ lhs ∨ a ∈ rhs) ∧ (b ∈ lhs ∨ b ∈ rhs) ∧ Beats t (fitness b) (fitness a)

/-- What is known of the merged set for every tolerance. -/
structure MergedTol (t : Tol K) (fitness : α → FVec K) (lhs rhs res : List α) : Prop where
  mem : ∀ x ∈ res, x ∈ lhs ∨ x ∈ rhs
  left : ∀ x ∈ lhs, x ∈ res ∨ ∃ y ∈ rhs, Beats t (fitness y) (fitness x)
  right : ∀ x ∈ rhs, x ∈ res ∨ ∃ y ∈ lhs, Beats t (fitness y) (fitness x)
  leads : ∀ x, x ∈ lhs ∨ x ∈ rhs → ∃ y ∈ res, Relation.ReflTransGen (MergeRel t fitness lhs rhs) x y

omit [IsStrictOrderedRing K] in
theorem MergedTol.symm {t : Tol K} {fitness : α → FVec K} {lhs rhs res : List α} (h : MergedTol t fitness lhs rhs res) : MergedTol t fitness rhs lhs res where
  mem x hx := (h.mem x hx).symm
  left := h.right
  right := h.left
  leads x hx := by
    obtain ⟨y, hy, hp⟩ := h.leads x hx.symm
    exact ⟨y, hy, Relation.ReflTransGen.mono (fun a b hab => ⟨hab.1.symm, hab.2.1.symm, hab.2.2⟩) _ _ hp⟩

theorem mem_filter_zipIdx {l : List α} {p : Nat → Bool} {x : α} : x ∈ (l.zipIdx.filter (fun x => p x.2)).map (·.1) ↔ ∃ (i : Nat) (hi : i < l.length), p i = true ∧ l[i] = x := by
  rw [List.mem_map]
  constructor
  · rintro ⟨⟨y, i⟩, hy, rfl⟩
    rw [List.mem_filter] at hy
    obtain ⟨hi, he⟩ := List.getElem?_eq_some_iff.1 (List.mem_zipIdx_iff_getElem?.1 hy.1)
    exact ⟨i, hi, hy.2, he⟩
  · rintro ⟨i, hi, hp, rfl⟩
    exact ⟨(l[i], i), List.mem_filter.2 ⟨List.mem_zipIdx_iff_getElem?.2 (List.getElem?_eq_getElem hi), hp⟩, rfl⟩

theorem mergeTol_core {t : Tol K} (ht : t.Valid) (fitness : α → FVec K) (lhs rhs : List α) (sched : List Nat)
    (less : Bool → Nat → Nat → Bool)
    (hless : less = fun b x y => if b then paretoCompareLess t ((rhs.map fitness).getD x []) ((lhs.map fitness).getD y [])
      else paretoCompareLess t ((lhs.map fitness).getD x []) ((rhs.map fitness).getD y [])) (comp : Nat → Nat → Int)
    (hcomp : comp = fun i j => paretoCompare t ((lhs.map fitness).getD i []) ((rhs.map fitness).getD j []))
    (hd : ∀ i, i < (lhs.map fitness).length →
      (mergeRun (lhs.map fitness).length (rhs.map fitness).length less comp sched).pc i = (rhs.map fitness).length) (res : List α)
    (hres : res = (lhs.zipIdx.filter (fun x => (mergeRun (lhs.map fitness).length (rhs.map fitness).length less comp sched).lhs x.2 != .dominated)).map (·.1) ++
      (rhs.zipIdx.filter (fun x => (mergeRun (lhs.map fitness).length (rhs.map fitness).length less comp sched).rhs x.2 != .dominated)).map (·.1)) :
    MergedTol t fitness lhs rhs res ∧
    ((∀ x ∈ lhs, ∀ y ∈ lhs, ¬ Dominates t (fitness x) (fitness y)) → (∀ x ∈ rhs, ∀ y ∈ rhs, ¬ Dominates t (fitness x) (fitness y)) →
      (∀ a b c : α, (a ∈ lhs ∨ a ∈ rhs) → (b ∈ lhs ∨ b ∈ rhs) → (c ∈ lhs ∨ c ∈ rhs) → Dominates t (fitness b) (fitness a) → Beats t (fitness c) (fitness b) → Dominates t (fitness c) (fitness a)) →
      ∀ x ∈ res, ∀ y, y ∈ lhs ∨ y ∈ rhs → ¬ Dominates t (fitness y) (fitness x)) := by
  have gl : ∀ i (hi : i < lhs.length), (lhs.map fitness).getD i [] = fitness lhs[i] := by
    intro i hi; simp [List.getD, hi]
  have gr : ∀ i (hi : i < rhs.length), (rhs.map fitness).getD i [] = fitness rhs[i] := by
    intro i hi; simp [List.getD, hi]
  have hlr : ∀ i j (hi : i < lhs.length) (hj : j < rhs.length), less false i j = true ↔ Beats t (fitness rhs[j]) (fitness lhs[i]) := by
    intro i j hi hj
    rw [hless]; simp only [Bool.false_eq_true, if_false]
    rw [gl i hi, gr j hj, less_iff_beats ht]
  have hrl : ∀ i j (hi : i < lhs.length) (hj : j < rhs.length), less true j i = true ↔ Beats t (fitness lhs[i]) (fitness rhs[j]) := by
    intro i j hi hj
    rw [hless]; simp only [if_true]
    rw [gl i hi, gr j hj, less_iff_beats ht]
  have hneg : ∀ i j (hi : i < lhs.length) (hj : j < rhs.length), comp i j < 0 ↔ Dominates t (fitness rhs[j]) (fitness lhs[i]) := by
    intro i j hi hj
    rw [hcomp]; dsimp only
    rw [gl i hi, gr j hj]
    exact (paretoCompare_spec ht _ _).1
  have hpos : ∀ i j (hi : i < lhs.length) (hj : j < rhs.length), comp i j > 0 ↔ Dominates t (fitness lhs[i]) (fitness rhs[j]) := by
    intro i j hi hj
    rw [hcomp]; dsimp only
    rw [gl i hi, gr j hj]
    exact (paretoCompare_spec ht _ _).2.1
  simp only [List.length_map] at hd hres
  have hsub : MergeSub lhs.length rhs.length less comp :=
    ⟨fun i j hi hj h => (hlr i j hi hj).2 (dominates_beats ht ((hneg i j hi hj).1 h)), fun i j hi hj h => (hrl i j hi hj).2 (dominates_beats ht ((hpos i j hi hj).1 h))⟩
  have hsound := mergeSound_run hsub sched
  have hleads := mergeLeads_run hsub sched
  have hmem : ∀ x, x ∈ res ↔ (∃ (i : Nat) (hi : i < lhs.length), (mergeRun lhs.length rhs.length less comp sched).lhs i ≠ .dominated ∧ lhs[i] = x) ∨
      (∃ (j : Nat) (hj : j < rhs.length), (mergeRun lhs.length rhs.length less comp sched).rhs j ≠ .dominated ∧ rhs[j] = x) := by
    intro x
    rw [hres, List.mem_append, mem_filter_zipIdx (p := fun i => (mergeRun lhs.length rhs.length less comp sched).lhs i != .dominated),
      mem_filter_zipIdx (p := fun i => (mergeRun lhs.length rhs.length less comp sched).rhs i != .dominated)]
    simp only [bne_iff_ne]
  refine ⟨⟨?_, ?_, ?_, ?_⟩, ?_⟩
  · intro x hx
    rcases (hmem x).1 hx with ⟨i, hi, -, rfl⟩ | ⟨i, hi, -, rfl⟩
    · exact Or.inl (List.getElem_mem hi)
    · exact Or.inr (List.getElem_mem hi)
  · intro x hx
    obtain ⟨i, hi, rfl⟩ := List.getElem_of_mem hx
    by_cases hdm : (mergeRun lhs.length rhs.length less comp sched).lhs i = .dominated
    · obtain ⟨j, hj, h⟩ := hsound.l1 i hi hdm
      exact Or.inr ⟨_, List.getElem_mem hj, (hlr i j hi hj).1 h⟩
    · exact Or.inl ((hmem _).2 (Or.inl ⟨i, hi, hdm, rfl⟩))
  · intro x hx
    obtain ⟨j, hj, rfl⟩ := List.getElem_of_mem hx
    by_cases hdm : (mergeRun lhs.length rhs.length less comp sched).rhs j = .dominated
    · obtain ⟨i, hi, h⟩ := hsound.r1 j hj hdm
      exact Or.inr ⟨_, List.getElem_mem hi, (hrl i j hi hj).1 h⟩
    · exact Or.inl ((hmem _).2 (Or.inr ⟨j, hj, hdm, rfl⟩))
  · -- translate the chains of positions
    have elt : ∀ (p : Bool × Nat), p.2 < (if p.1 then rhs.length else lhs.length) → ∃ x, (if p.1 then rhs[p.2]? else lhs[p.2]?) = some x := by
      rintro ⟨b, k⟩ hp
      cases b
      · exact ⟨_, List.getElem?_eq_getElem hp⟩
      · exact ⟨_, List.getElem?_eq_getElem hp⟩
    have chain : ∀ (p q : Bool × Nat), Relation.ReflTransGen (MergeEdge lhs.length rhs.length less) p q → ∀ x y : α, (if p.1 then rhs[p.2]? else lhs[p.2]?) = some x →
        (if q.1 then rhs[q.2]? else lhs[q.2]?) = some y → Relation.ReflTransGen (MergeRel t fitness lhs rhs) x y := by
      intro p q hpq
      induction hpq with
      | refl => intro x y hx hy; rw [hx] at hy; obtain rfl := Option.some.inj hy; exact .refl
      | @tail q r _ hqr ih =>
        intro x y hx hy
        obtain ⟨h1, h2, h3, h4⟩ := hqr
        obtain ⟨z, hz⟩ := elt q h2
        refine (ih x z hx hz).tail ?_
        obtain ⟨bq, kq⟩ := q
        obtain ⟨br, kr⟩ := r
        cases bq <;> cases br <;> simp only [Bool.false_eq_true, if_true, if_false, ne_eq, not_true_eq_false] at h1 h2 h3 h4 hz hy
        · obtain ⟨_, rfl⟩ := List.getElem?_eq_some_iff.1 hz
          obtain ⟨_, rfl⟩ := List.getElem?_eq_some_iff.1 hy
          exact ⟨Or.inl (List.getElem_mem _), Or.inr (List.getElem_mem _), (hlr kq kr h2 h3).1 h4⟩
        · obtain ⟨_, rfl⟩ := List.getElem?_eq_some_iff.1 hz
          obtain ⟨_, rfl⟩ := List.getElem?_eq_some_iff.1 hy
          exact ⟨Or.inr (List.getElem_mem _), Or.inl (List.getElem_mem _), (hrl kr kq h3 h2).1 h4⟩
    intro x hx
    have hstart : ∃ p : Bool × Nat, p.2 < (if p.1 then rhs.length else lhs.length) ∧ (if p.1 then rhs[p.2]? else lhs[p.2]?) = some x := by
      rcases hx with hx | hx
      · obtain ⟨i, hi, rfl⟩ := List.getElem_of_mem hx
        exact ⟨(false, i), hi, List.getElem?_eq_getElem hi⟩
      · obtain ⟨i, hi, rfl⟩ := List.getElem_of_mem hx
        exact ⟨(true, i), hi, List.getElem?_eq_getElem hi⟩
    obtain ⟨p, hp, hpx⟩ := hstart
    obtain ⟨q, hq, hpq, hf, -⟩ := hleads p hp
    obtain ⟨y, hy⟩ := elt q hq
    refine ⟨y, (hmem y).2 ?_, chain p q hpq x y hpx hy⟩
    obtain ⟨b, k⟩ := q
    cases b
    · obtain ⟨h1, h2⟩ := List.getElem?_eq_some_iff.1 hy
      exact Or.inl ⟨k, h1, hf, h2⟩
    · obtain ⟨h1, h2⟩ := List.getElem?_eq_some_iff.1 hy
      exact Or.inr ⟨k, h1, hf, h2⟩
  · intro al ar hch x hx y hy hdom
    have hyp : MergeHyp2 lhs.length rhs.length less
        (fun b i j => if b then comp j i > 0 else comp i j < 0) comp := by
      refine ⟨?_, ?_, ?_, ?_, ?_, ?_⟩
      · intro i j hi hj h
        exact hsub.neg i j hi hj (by simpa using h)
      · intro j i hj hi h
        exact hsub.pos i j hi hj (by simpa using h)
      · intro i j k hi hj hk h1 h2
        simp only [Bool.false_eq_true, if_false] at h1
        rw [hneg i j hi hj] at h1
        rw [hrl k j hk hj] at h2
        exact al _ (List.getElem_mem hk) _ (List.getElem_mem hi)
          (hch _ _ _ (Or.inl (List.getElem_mem hi)) (Or.inr (List.getElem_mem hj)) (Or.inl (List.getElem_mem hk)) h1 h2)
      · intro j i k hj hi hk h1 h2
        simp only [if_true] at h1
        rw [hpos i j hi hj] at h1
        rw [hlr i k hi hk] at h2
        exact ar _ (List.getElem_mem hk) _ (List.getElem_mem hj)
          (hch _ _ _ (Or.inr (List.getElem_mem hj)) (Or.inl (List.getElem_mem hi)) (Or.inr (List.getElem_mem hk)) h1 h2)
      · intro i j _ _; simp
      · intro i j _ _; simp
    obtain ⟨f1, f2⟩ := merge2_final hyp sched hd
    rcases (hmem x).1 hx with ⟨i, hi, hni, rfl⟩ | ⟨j, hj, hnj, rfl⟩
    · rcases hy with hy | hy
      · exact al _ hy _ (List.getElem_mem hi) hdom
      · obtain ⟨j, hj, rfl⟩ := List.getElem_of_mem hy
        exact hni (f1 i j hi hj (by simpa using (hneg i j hi hj).2 hdom))
    · rcases hy with hy | hy
      · obtain ⟨i, hi, rfl⟩ := List.getElem_of_mem hy
        exact hnj (f2 j i hj hi (by simpa using (hpos i j hi hj).2 hdom))
      · exact ar _ hy _ (List.getElem_mem hj) hdom

/-- The merged set, for every tolerance and every schedule. -/
theorem mergeParetoSets_tol {t : Tol K} (ht : t.Valid) (fitness : α → FVec K) (lhs rhs : List α) (sched : List Nat) (res : List α)
    (hres : mergeParetoSets t fitness lhs rhs sched = some res) :
    MergedTol t fitness lhs rhs res ∧
    ((∀ x ∈ lhs, ∀ y ∈ lhs, ¬ Dominates t (fitness x) (fitness y)) → (∀ x ∈ rhs, ∀ y ∈ rhs, ¬ Dominates t (fitness x) (fitness y)) →
      (∀ a b c : α, (a ∈ lhs ∨ a ∈ rhs) → (b ∈ lhs ∨ b ∈ rhs) → (c ∈ lhs ∨ c ∈ rhs) → Dominates t (fitness b) (fitness a) → Beats t (fitness c) (fitness b) → Dominates t (fitness c) (fitness a)) →
      ∀ x ∈ res, ∀ y, y ∈ lhs ∨ y ∈ rhs → ¬ Dominates t (fitness y) (fitness x)) := by
  unfold mergeParetoSets at hres
  split at hres
  · rename_i h0
    have : lhs = [] := by simpa using h0
    subst this
    cases hres
    refine ⟨⟨fun x hx => Or.inr hx, by simp, fun x hx => Or.inl hx, fun x hx => ?_⟩, ?_⟩
    · exact ⟨x, by simpa using hx, .refl⟩
    · intro _ ar _ x hx y hy
      exact ar y (by simpa using hy) x hx
  · split at hres
    · rename_i h0
      have : rhs = [] := by simpa using h0
      subst this
      cases hres
      refine ⟨⟨fun x hx => Or.inl hx, fun x hx => Or.inl hx, by simp, fun x hx => ?_⟩, ?_⟩
      · exact ⟨x, by simpa using hx, .refl⟩
      · intro al _ _ x hx y hy
        exact al y (by simpa using hy) x hx
    · by_cases hlen : rhs.length > lhs.length
      · simp only [hlen, if_true] at hres
        split at hres
        · rename_i hd
          obtain ⟨e1, e2⟩ := mergeTol_core ht fitness rhs lhs sched _ rfl _ rfl hd res (Option.some.inj hres).symm
          exact ⟨e1.symm, fun al ar hch x hx y hy => e2 ar al (fun a b c ha hb hc => hch a b c ha.symm hb.symm hc.symm) x hx y hy.symm⟩
        · cases hres
      · simp only [hlen, if_false] at hres
        split at hres
        · rename_i hd
          exact mergeTol_core ht fitness lhs rhs sched _ rfl _ rfl hd res (Option.some.inj hres).symm
        · cases hres

end Merge

end Gapp.Model
