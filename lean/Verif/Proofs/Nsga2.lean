import Mathlib.Data.List.Nodup
import Verif.Model.Nsga2
import Verif.Spec.Nsga2
import Verif.Spec.Algorithm
import Verif.Props.Algorithm
import Verif.Proofs.ListAux
/-! # Proofs about crowding distances -/

namespace Gapp.Model
open Gapp.Spec Gapp.Props

/-- The contract of `std::sort`. -/
def SortContract (sort : SortFn) : Prop := ∀ lt, StrictWeakOrder lt → ∀ l, IsSortOf lt l (sort lt l)

theorem swo_of_key {α V : Type} [LinearOrder V] (f : α → V) : StrictWeakOrder (fun a b => decide (f a < f b)) :=
  ⟨by simp, fun a b c h1 h2 => by simp only [decide_eq_true_eq] at *; exact lt_trans h1 h2, fun a b c h1 h2 h3 h4 => by
    simp only [decide_eq_false_iff_not, not_lt] at *
    exact le_trans h3 h1⟩

/-- There is a function that meets the contract. -/
theorem exists_sortContract : ∃ sort, SortContract sort :=
  ⟨fun lt l => l.mergeSort (fun a b => !lt b a), fun lt h l => by
    refine ⟨List.mergeSort_perm _ _, ?_⟩
    have := List.pairwise_mergeSort (le := fun a b => !lt b a) ?_ ?_ l
    · exact this.imp (fun h => by simpa using h)
    · intro a b c hab hbc
      simp only [Bool.not_eq_true'] at hab hbc ⊢
      by_contra hca
      simp only [Bool.not_eq_false] at hca
      by_cases hac : lt a b = true
      · have := h.trans c a b hca hac
        rw [hbc] at this; cases this
      · simp only [Bool.not_eq_true] at hac
        by_cases hcb : lt b c = true
        · have := h.trans b c a hcb hca
          rw [hab] at this; cases this
        · simp only [Bool.not_eq_true] at hcb
          have := h.incomp c b a hbc hcb hab hac
          rw [hca] at this; cases this
    · intro a b
      simp only [Bool.or_eq_true, Bool.not_eq_true']
      by_contra hc
      push Not at hc
      simp only [ne_eq, Bool.not_eq_false] at hc
      have := h.trans _ _ _ hc.1 hc.2
      rw [h.irrefl] at this; cases this⟩

section
variable {K : Type} [Field K] [LinearOrder K]

/-- The gap of `i`, as it is computed. -/
def gapIdx (eps : K) (val : Nat → K) (order : List Nat) (i : Nat) : WithTop K :=
  let k := order.idxOf i
  if k = 0 ∨ k + 1 = order.length then ⊤
  else (((val (order.getD (k + 1) 0) - val (order.getD (k - 1) 0)) / max (val (order.getD (order.length - 1) 0) - val (order.getD 0 0)) eps : K) : WithTop K)

theorem isGap_gapIdx (eps : K) (val : Nat → K) (order : List Nat) (i : Nat) (hi : i ∈ order) : IsGap eps val order i (gapIdx eps val order i) := by
  have hk : order.idxOf i < order.length := List.idxOf_lt_length_iff.mpr hi
  refine ⟨order.idxOf i, ?_, ?_⟩
  · rw [List.getElem?_eq_getElem hk, List.getElem_idxOf]
  · unfold gapIdx
    simp only
    split
    · rename_i h; exact Or.inl ⟨h, rfl⟩
    · rename_i h
      have hg : ∀ j, j < order.length → order[j]? = some (order.getD j 0) := by
        intro j hj
        rw [List.getElem?_eq_getElem hj, List.getD_eq_getElem?_getD, List.getElem?_eq_getElem hj]; rfl
      exact Or.inr ⟨_, _, _, _, by omega, hg _ (by omega), hg _ (by omega), hg _ (by omega), hg _ (by omega), rfl⟩

/-- The value read from a column. -/
def colVal (fvec : List K) (i : Nat) : K := fvec.getD i 0

theorem colVal_get (fvec : List K) (i : Nat) (h : i < fvec.length) : fvec[i]? = some (colVal fvec i) := by
  rw [List.getElem?_eq_getElem h, colVal, List.getD_eq_getElem?_getD, List.getElem?_eq_getElem h]; rfl

theorem storeAt_eq {α : Type} (v : List α) (i : Nat) (x : α) (h : i < v.length) : storeAt v i x = some (v.set i x) := by
  simp [storeAt, h]

/-- The inner loop. -/
theorem crowdInner (fvec : List K) (finterval : K) (front : List (Nat × Nat)) (hnd : (front.map (·.1)).Nodup) (hlt : ∀ e ∈ front, e.1 < fvec.length)
    (dists : List (WithTop K)) (hd : dists.length = fvec.length) : ∀ c, c + 2 ≤ front.length →
    ∃ d', (List.range' 1 c).foldlM (fun dists it => do
      let next ← front[it + 1]?
      let prev ← front[it - 1]?
      let cur ← front[it]?
      let fnext ← fvec[next.1]?
      let fprev ← fvec[prev.1]?
      let old ← dists[cur.1]?
      storeAt dists cur.1 (old + (((fnext - fprev) / finterval : K) : WithTop K))) dists = some d' ∧ d'.length = dists.length ∧
      (∀ i, (∀ k e, 1 ≤ k → k ≤ c → front[k]? = some e → e.1 ≠ i) → d'[i]? = dists[i]?) ∧
      ∀ k (hk : 1 ≤ k) (hkc : k ≤ c) (hl : k + 1 < front.length), ∃ old, dists[front[k].1]? = some old ∧
        d'[front[k].1]? = some (old + (((colVal fvec front[k + 1].1 - colVal fvec front[k - 1].1) / finterval : K) : WithTop K)) := by
  intro c
  induction c with
  | zero => intro _; exact ⟨dists, by simp, rfl, fun _ _ => rfl, fun k hk hkc => by omega⟩
  | succ c ih =>
    intro hc
    obtain ⟨d, h1, h2, h3, h4⟩ := ih (by omega)
    have hmem : ∀ k (h : k < front.length), front[k].1 < fvec.length := fun k h => hlt _ (List.getElem_mem h)
    have hinj : ∀ j k (hj : j < front.length) (hk : k < front.length), front[j].1 = front[k].1 → j = k := by
      intro j k hj hk h
      have := (List.Nodup.getElem_inj_iff hnd (i := j) (j := k) (hi := by simpa using hj) (hj := by simpa using hk)).mp (by simpa using h)
      exact this
    have hcur : c + 1 < front.length := by omega
    have hold : d[front[c + 1].1]? = dists[front[c + 1].1]? := by
      apply h3
      intro k e hk hkc he heq
      obtain ⟨hl, rfl⟩ := List.getElem?_eq_some_iff.mp he
      have := hinj k (c + 1) hl hcur heq
      omega
    have hidx : front[c + 1].1 < d.length := by rw [h2, hd]; exact hmem _ hcur
    have hval : d[front[c + 1].1]? = some d[front[c + 1].1] := List.getElem?_eq_getElem hidx
    refine ⟨d.set front[c + 1].1 (d[front[c + 1].1] + (((colVal fvec front[c + 1 + 1].1 - colVal fvec front[c + 1 - 1].1) / finterval : K) : WithTop K)), ?_, by simpa using h2, ?_, ?_⟩
    · rw [List.range'_concat, List.foldlM_append, h1]
      simp only [Option.bind_eq_bind, Option.bind_some, List.foldlM_cons, List.foldlM_nil, one_mul]
      rw [show 1 + c = c + 1 by omega]
      simp only [List.getElem?_eq_getElem (show c + 1 + 1 < front.length by omega), List.getElem?_eq_getElem (show c + 1 - 1 < front.length by omega),
        List.getElem?_eq_getElem hcur, Option.bind_some, colVal_get fvec _ (hmem (c + 1 + 1) (by omega)), colVal_get fvec _ (hmem (c + 1 - 1) (by omega)), hval]
      rw [storeAt_eq _ _ _ hidx]
      rfl
    · intro i hi
      rw [List.getElem?_set_ne (hi (c + 1) _ (by omega) (by omega) (List.getElem?_eq_getElem hcur))]
      exact h3 i (fun k e hk hkc he => hi k e hk (by omega) he)
    · intro k hk hkc hl
      rcases Nat.lt_or_ge k (c + 1) with hlt' | hge
      · obtain ⟨old, ho1, ho2⟩ := h4 k hk (by omega) hl
        refine ⟨old, ho1, ?_⟩
        rw [List.getElem?_set_ne]
        · exact ho2
        · intro heq
          have := hinj (c + 1) k hcur (by omega) heq
          omega
      · obtain rfl : k = c + 1 := by omega
        exact ⟨d[front[c + 1].1], by rw [← hold, hval], by rw [List.getElem?_set_self hidx]⟩

/-- One front, one objective. -/
theorem crowdFront_spec (eps : K) (fvec : List K) (front : List (Nat × Nat)) (hne : front ≠ []) (hnd : (front.map (·.1)).Nodup) (hlt : ∀ e ∈ front, e.1 < fvec.length)
    (dists : List (WithTop K)) (hd : dists.length = fvec.length) :
    ∃ d', crowdFront eps fvec front dists = some d' ∧ d'.length = dists.length ∧ (∀ i, i ∉ front.map (·.1) → d'[i]? = dists[i]?) ∧
      ∀ i, i ∈ front.map (·.1) → ∃ old, dists[i]? = some old ∧ d'[i]? = some (old + gapIdx eps (colVal fvec) (front.map (·.1)) i) := by
  have hpos : 0 < front.length := List.length_pos_iff.mpr hne
  have hmem : ∀ k (h : k < front.length), front[k].1 < fvec.length := fun k h => hlt _ (List.getElem_mem h)
  have hinj : ∀ j k (hj : j < front.length) (hk : k < front.length), front[j].1 = front[k].1 → j = k := by
    intro j k hj hk h
    exact (List.Nodup.getElem_inj_iff hnd (i := j) (j := k) (hi := by simpa using hj) (hj := by simpa using hk)).mp (by simpa using h)
  have hidx : ∀ k (h : k < front.length), (front.map (·.1)).idxOf front[k].1 = k := by
    intro k h
    have := hnd.idxOf_getElem k (by simpa using h)
    simpa using this
  set fint : K := if colVal fvec front[front.length - 1].1 - colVal fvec front[0].1 < eps then eps
    else colVal fvec front[front.length - 1].1 - colVal fvec front[0].1 with hfint
  have hfm : fint = max (colVal fvec front[front.length - 1].1 - colVal fvec front[0].1) eps := by
    rw [hfint]; split
    · rename_i h; rw [max_eq_right h.le]
    · rename_i h; rw [max_eq_left (not_lt.mp h)]
  set d1 : List (WithTop K) := (dists.set front[0].1 ⊤).set front[front.length - 1].1 ⊤ with hd1
  have hd1l : d1.length = dists.length := by simp [hd1]
  have hstep : crowdFront eps fvec front dists = (List.range' 1 (front.length - 2)).foldlM (fun dists it => do
      let next ← front[it + 1]?
      let prev ← front[it - 1]?
      let cur ← front[it]?
      let fnext ← fvec[next.1]?
      let fprev ← fvec[prev.1]?
      let old ← dists[cur.1]?
      storeAt dists cur.1 (old + (((fnext - fprev) / fint : K) : WithTop K))) d1 := by
    unfold crowdFront
    rw [List.head?_eq_getElem?, List.getLast?_eq_getElem?, List.getElem?_eq_getElem hpos, List.getElem?_eq_getElem (show front.length - 1 < front.length by omega)]
    simp only [Option.bind_eq_bind, Option.bind_some, colVal_get fvec _ (hmem 0 hpos), colVal_get fvec _ (hmem (front.length - 1) (by omega)), ← hfint]
    rw [storeAt_eq _ _ _ (by rw [hd]; exact hmem 0 hpos)]
    simp only [Option.bind_some]
    rw [storeAt_eq _ _ _ (by rw [List.length_set, hd]; exact hmem _ (by omega))]
    simp only [Option.bind_some, ← hd1]
  have hget1 : ∀ i, i ≠ front[0].1 → i ≠ front[front.length - 1].1 → d1[i]? = dists[i]? := by
    intro i h0 hl
    rw [hd1, List.getElem?_set_ne (Ne.symm hl), List.getElem?_set_ne (Ne.symm h0)]
  have htop0 : d1[front[0].1]? = some ⊤ := by
    rw [hd1]
    by_cases h : front[front.length - 1].1 = front[0].1
    · rw [h, List.getElem?_set_self (by rw [List.length_set, hd]; exact hmem 0 hpos)]
    · rw [List.getElem?_set_ne h, List.getElem?_set_self (by rw [hd]; exact hmem 0 hpos)]
  have htopl : d1[front[front.length - 1].1]? = some ⊤ := by
    rw [hd1, List.getElem?_set_self (by rw [List.length_set, hd]; exact hmem _ (by omega))]
  have hold : ∀ k (h : k < front.length), dists[front[k].1]? = some (dists.getD front[k].1 0) := by
    intro k h
    have : front[k].1 < dists.length := by rw [hd]; exact hmem k h
    rw [List.getD_eq_getElem?_getD, List.getElem?_eq_getElem this]; rfl
  by_cases hlen : front.length = 1
  · -- a single candidate
    refine ⟨d1, by rw [hstep, hlen]; simp, hd1l, ?_, ?_⟩
    · intro i hi
      apply hget1
      · intro h; exact hi (List.mem_map.mpr ⟨_, List.getElem_mem hpos, h.symm⟩)
      · intro h; exact hi (List.mem_map.mpr ⟨_, List.getElem_mem (by omega), h.symm⟩)
    · intro i hi
      obtain ⟨e, he, rfl⟩ := List.mem_map.mp hi
      obtain ⟨k, hk, rfl⟩ := List.getElem_of_mem he
      have hk0 : k = 0 := by omega
      subst hk0
      refine ⟨_, hold 0 hpos, ?_⟩
      rw [htop0]
      simp [gapIdx, hidx 0 hpos]
  · obtain ⟨d', h1, h2, h3, h4⟩ := crowdInner fvec fint front hnd hlt d1 (by rw [hd1l, hd]) (front.length - 2) (by omega)
    refine ⟨d', by rw [hstep]; exact h1, by rw [h2, hd1l], ?_, ?_⟩
    · intro i hi
      rw [h3 i (fun k e _ _ he h => hi (List.mem_map.mpr ⟨e, List.mem_of_getElem? he, h⟩))]
      apply hget1
      · intro h; exact hi (List.mem_map.mpr ⟨_, List.getElem_mem hpos, h.symm⟩)
      · intro h; exact hi (List.mem_map.mpr ⟨_, List.getElem_mem (by omega), h.symm⟩)
    · intro i hi
      obtain ⟨e, he, rfl⟩ := List.mem_map.mp hi
      obtain ⟨k, hk, rfl⟩ := List.getElem_of_mem he
      refine ⟨_, hold k hk, ?_⟩
      by_cases hend : k = 0 ∨ k + 1 = front.length
      · -- first or last
        have hkeep : d'[front[k].1]? = d1[front[k].1]? := by
          apply h3
          intro j e' hj hjc he' heq
          obtain ⟨hjl, rfl⟩ := List.getElem?_eq_some_iff.mp he'
          have := hinj j k hjl hk heq
          omega
        rw [hkeep]
        have : d1[front[k].1]? = some ⊤ := by
          rcases hend with rfl | h
          · exact htop0
          · have : k = front.length - 1 := by omega
            subst this; exact htopl
        rw [this]
        simp [gapIdx, hidx k hk, List.length_map, if_pos hend, WithTop.add_top]
      · obtain ⟨old, ho1, ho2⟩ := h4 k (by omega) (by omega) (by omega)
        have hne0 : front[k].1 ≠ front[0].1 := fun h => by have := hinj k 0 hk hpos h; omega
        have hnel : front[k].1 ≠ front[front.length - 1].1 := fun h => by have := hinj k (front.length - 1) hk (by omega) h; omega
        rw [hget1 _ hne0 hnel, hold k hk] at ho1
        rw [ho2, ← Option.some.inj ho1]
        have hgD : ∀ j (hj : j < front.length), (front.map (·.1)).getD j 0 = front[j].1 := by
          intro j hj
          rw [List.getD_eq_getElem?_getD, List.getElem?_map, List.getElem?_eq_getElem hj]; rfl
        simp only [gapIdx, hidx k hk, List.length_map, if_neg hend]
        rw [hgD (k + 1) (by omega), hgD (k - 1) (by omega), hgD (front.length - 1) (by omega), hgD 0 hpos, hfm]

/-- One objective, all the fronts. -/
theorem crowdObjective_spec (sort : SortFn) (hs : SortContract sort) (eps : K) (fvec : List K) :
    ∀ (fronts : List (List (Nat × Nat))) (dists : List (WithTop K)), dists.length = fvec.length → (∀ f ∈ fronts, f ≠ []) →
      (fronts.flatten.map (·.1)).Nodup → (∀ e ∈ fronts.flatten, e.1 < fvec.length) →
      ∃ d', crowdObjective sort eps fvec fronts dists = some (fronts.map (sort (objectiveLess fvec)), d') ∧ d'.length = dists.length ∧
        (∀ i, i ∉ fronts.flatten.map (·.1) → d'[i]? = dists[i]?) ∧
        ∀ f ∈ fronts, ∀ i ∈ f.map (·.1), ∃ old, dists[i]? = some old ∧
          d'[i]? = some (old + gapIdx eps (colVal fvec) ((sort (objectiveLess fvec) f).map (·.1)) i)
  | [], dists, _, _, _, _ => ⟨dists, rfl, rfl, fun _ _ => rfl, by simp⟩
  | f :: fs, dists, hd, hne, hnd, hlt => by
      have hsf := hs (objectiveLess fvec) (swo_of_key (fun e : Nat × Nat => fvec.getD e.1 0)) f
      have hpm : ((sort (objectiveLess fvec) f).map (·.1)).Perm (f.map (·.1)) := hsf.1.map _
      simp only [List.flatten_cons, List.map_append, List.nodup_append] at hnd
      obtain ⟨hnd1, hnd2, hdisj⟩ := hnd
      obtain ⟨d1, h1, h2, h3, h4⟩ := crowdFront_spec eps fvec (sort (objectiveLess fvec) f)
        (by intro h; have := hsf.1.length_eq; rw [h] at this; exact hne f List.mem_cons_self (List.length_eq_zero_iff.mp this.symm))
        (hpm.nodup_iff.mpr hnd1) (fun e he => hlt e (by simp only [List.flatten_cons, List.mem_append]; exact Or.inl (hsf.1.mem_iff.mp he))) dists hd
      obtain ⟨d', g1, g2, g3, g4⟩ := crowdObjective_spec sort hs eps fvec fs d1 (by rw [h2, hd]) (fun g hg => hne g (List.mem_cons_of_mem _ hg)) hnd2
        (fun e he => hlt e (by simp only [List.flatten_cons, List.mem_append]; exact Or.inr he))
      refine ⟨d', ?_, by rw [g2, h2], ?_, ?_⟩
      · simp [crowdObjective, h1, g1]
      · intro i hi
        simp only [List.flatten_cons, List.map_append, List.mem_append, not_or] at hi
        rw [g3 i hi.2, h3 i (fun h => hi.1 (hpm.mem_iff.mp h))]
      · intro g hg i hi
        rcases List.mem_cons.mp hg with rfl | hg
        · obtain ⟨old, ho1, ho2⟩ := h4 i (hpm.mem_iff.mpr hi)
          refine ⟨old, ho1, ?_⟩
          rw [g3 i (fun h => hdisj i hi i h rfl)]
          exact ho2
        · obtain ⟨old, ho1, ho2⟩ := g4 g hg i hi
          refine ⟨old, ?_, ho2⟩
          rw [← ho1, h3 i]
          intro h
          have h5 : i ∈ fs.flatten.map (·.1) := by
            obtain ⟨e, he, rfl⟩ := List.mem_map.mp hi
            exact List.mem_map.mpr ⟨e, List.mem_flatten.mpr ⟨g, hg, he⟩, rfl⟩
          exact hdisj i (hpm.mem_iff.mp h) i h5 rfl

/-- The column of an objective. -/
def objColumn (fmat : List (List K)) (obj : Nat) : List K := fmat.map (fun r => r.getD obj 0)

theorem objColumn_mapM (fmat : List (List K)) (ncols obj : Nat) (hm : ∀ r ∈ fmat, r.length = ncols) (h : obj < ncols) :
    fmat.mapM (fun r => r[obj]?) = some (objColumn fmat obj) := by
  refine ListAux.mapM_eq_some_of_forall _ _ _ (by simp [objColumn]) ?_
  intro i h1 h2
  have : obj < fmat[i].length := by rw [hm _ (List.getElem_mem h1)]; exact h
  simp [objColumn, this]

/-- A front after the sorts of the first `t` objectives. -/
def sortChain (sort : SortFn) (fmat : List (List K)) : Nat → List (Nat × Nat) → List (Nat × Nat)
  | 0, f => f
  | t + 1, f => sort (objectiveLess (objColumn fmat t)) (sortChain sort fmat t f)

theorem sortChain_perm (sort : SortFn) (hs : SortContract sort) (fmat : List (List K)) (t : Nat) (f : List (Nat × Nat)) : (sortChain sort fmat t f).Perm f := by
  induction t with
  | zero => exact List.Perm.refl _
  | succ t ih => exact (hs _ (swo_of_key (fun e : Nat × Nat => (objColumn fmat t).getD e.1 0)) _).1.trans ih

theorem flatten_map_perm {α : Type} (g : List α → List α) (h : ∀ f, (g f).Perm f) : ∀ fs : List (List α), (fs.map g).flatten.Perm fs.flatten
  | [] => List.Perm.refl _
  | f :: fs => by simpa using (h f).append (flatten_map_perm g h fs)

/-- All the objectives. -/
theorem crowdingDistances_spec (sort : SortFn) (hs : SortContract sort) (eps : K) (ncols : Nat) (fmat : List (List K)) (hm : ∀ r ∈ fmat, r.length = ncols)
    (fronts : List (List (Nat × Nat))) (hne : ∀ f ∈ fronts, f ≠ []) (hnd : (fronts.flatten.map (·.1)).Nodup) (hlt : ∀ e ∈ fronts.flatten, e.1 < fmat.length) :
    ∃ d, crowdingDistances sort eps ncols fmat fronts = some (fronts.map (sortChain sort fmat ncols), d) ∧ d.length = fmat.length ∧
      (∀ i, i < fmat.length → i ∉ fronts.flatten.map (·.1) → d[i]? = some 0) ∧
      ∀ f ∈ fronts, ∀ i ∈ f.map (·.1), d[i]? = some (((List.range ncols).map (fun obj =>
        gapIdx eps (colVal (objColumn fmat obj)) ((sortChain sort fmat (obj + 1) f).map (·.1)) i)).sum) := by
  have key : ∀ t, t ≤ ncols → ∃ d, (List.range t).foldlM (fun (s : List (List (Nat × Nat)) × List (WithTop K)) obj => do
        let fvec ← fmat.mapM (fun r => r[obj]?)
        crowdObjective sort eps fvec s.1 s.2) (fronts, List.replicate fmat.length 0) = some (fronts.map (sortChain sort fmat t), d) ∧ d.length = fmat.length ∧
      (∀ i, i < fmat.length → i ∉ fronts.flatten.map (·.1) → d[i]? = some 0) ∧
      ∀ f ∈ fronts, ∀ i ∈ f.map (·.1), d[i]? = some (((List.range t).map (fun obj =>
        gapIdx eps (colVal (objColumn fmat obj)) ((sortChain sort fmat (obj + 1) f).map (·.1)) i)).sum) := by
    intro t
    induction t with
    | zero =>
      intro _
      refine ⟨List.replicate fmat.length 0, ?_, by simp, ?_, ?_⟩
      · simp [sortChain]
      · intro i hi _; simp [hi]
      · intro f hf i hi
        obtain ⟨e, he, rfl⟩ := List.mem_map.mp hi
        have := hlt e (List.mem_flatten.mpr ⟨f, hf, he⟩)
        simp [this]
    | succ t ih =>
      intro ht
      obtain ⟨d, h1, h2, h3, h4⟩ := ih (by omega)
      have hpm := flatten_map_perm (sortChain sort fmat t) (sortChain_perm sort hs fmat t) fronts
      obtain ⟨d', g1, g2, g3, g4⟩ := crowdObjective_spec sort hs eps (objColumn fmat t) (fronts.map (sortChain sort fmat t)) d (by simp [h2, objColumn])
        (by
          intro g hg
          obtain ⟨f, hf, rfl⟩ := List.mem_map.mp hg
          intro hnil
          have := (sortChain_perm sort hs fmat t f).length_eq
          rw [hnil] at this
          exact hne f hf (List.length_eq_zero_iff.mp this.symm))
        ((hpm.map _).nodup_iff.mpr hnd)
        (fun e he => by simp only [objColumn, List.length_map]; exact hlt e (hpm.mem_iff.mp he))
      refine ⟨d', ?_, by rw [g2, h2], ?_, ?_⟩
      · rw [List.range_succ, List.foldlM_append, h1]
        simp only [Option.bind_eq_bind, Option.bind_some, List.foldlM_cons, List.foldlM_nil]
        rw [objColumn_mapM fmat ncols t hm (by omega)]
        simp only [Option.bind_some, g1, List.map_map]
        rfl
      · intro i hi hni
        rw [g3 i (fun h => hni ((hpm.map _).mem_iff.mp h))]
        exact h3 i hi hni
      · intro f hf i hi
        have hi' : i ∈ (sortChain sort fmat t f).map (·.1) := ((sortChain_perm sort hs fmat t f).map _).mem_iff.mpr hi
        obtain ⟨old, ho1, ho2⟩ := g4 _ (List.mem_map_of_mem hf) i hi'
        rw [h4 f hf i hi] at ho1
        rw [ho2, ← Option.some.inj ho1, List.range_succ, List.map_append, List.sum_append]
        simp [sortChain]
  exact key ncols le_rfl

/-- The computed distances are crowding distances of each front. -/
theorem crowdingDistances_isCrowding (sort : SortFn) (hs : SortContract sort) (eps : K) (ncols : Nat) (fmat : List (List K)) (hm : ∀ r ∈ fmat, r.length = ncols)
    (fronts : List (List (Nat × Nat))) (hne : ∀ f ∈ fronts, f ≠ []) (hnd : (fronts.flatten.map (·.1)).Nodup) (hlt : ∀ e ∈ fronts.flatten, e.1 < fmat.length) :
    ∃ d, crowdingDistances sort eps ncols fmat fronts = some (fronts.map (sortChain sort fmat ncols), d) ∧ d.length = fmat.length ∧
      ∀ f ∈ fronts, IsCrowding eps ncols fmat (f.map (·.1)) (fun i => d.getD i 0) := by
  obtain ⟨d, h1, h2, h3, h4⟩ := crowdingDistances_spec sort hs eps ncols fmat hm fronts hne hnd hlt
  refine ⟨d, h1, h2, ?_⟩
  intro f hf
  refine ⟨fun obj => colVal (objColumn fmat obj), fun obj => (sortChain sort fmat (obj + 1) f).map (·.1),
    fun obj i => gapIdx eps (colVal (objColumn fmat obj)) ((sortChain sort fmat (obj + 1) f).map (·.1)) i, ?_, ?_⟩
  · intro obj hobj
    have hp := (sortChain_perm sort hs fmat (obj + 1) f).map (·.1)
    refine ⟨hp, ?_, ?_⟩
    · rw [List.pairwise_map]
      have := (hs (objectiveLess (objColumn fmat obj)) (swo_of_key (fun e : Nat × Nat => (objColumn fmat obj).getD e.1 0)) (sortChain sort fmat obj f)).2
      refine this.imp ?_
      intro a b hab
      simpa [objectiveLess, colVal] using hab
    · intro i hi
      refine ⟨?_, isGap_gapIdx _ _ _ _ (hp.mem_iff.mpr hi)⟩
      obtain ⟨e, he, rfl⟩ := List.mem_map.mp hi
      have hel := hlt e (List.mem_flatten.mpr ⟨f, hf, he⟩)
      refine ⟨fmat[e.1], List.getElem?_eq_getElem hel, ?_⟩
      have hol : obj < fmat[e.1].length := by rw [hm _ (List.getElem_mem hel)]; exact hobj
      simp [colVal, objColumn, hel, hol]
  · intro i hi
    have := h4 f hf i hi
    simp only [List.getD_eq_getElem?_getD, this, Option.getD_some]
end

end Gapp.Model
