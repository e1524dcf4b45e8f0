import Verif.Model.DoubleMulti
import Verif.Proofs.Nsga3
import Verif.Proofs.NdSort
/-! # Proofs about NSGA-III in binary64 arithmetic -/

namespace Gapp.Model
open Gapp.Spec Gapp.Props Dbl

section
variable {V : Type} [LT V] [DecidableLT V]

theorem minLoop_lt (n : Nat) : ∀ (l : List V) (m : Nat) (v : V) (first : Nat), m < n → first + l.length ≤ n → minLoop m v first l < n
  | [], m, _, _, hm, _ => hm
  | x :: l, m, v, first, hm, hl => by
      rw [List.length_cons] at hl
      unfold minLoop
      split
      · exact minLoop_lt n l m v (first + 1) hm (by omega)
      · exact minLoop_lt n l first x (first + 1) (by omega) (by omega)

theorem minElement_inRange (l : List V) (h : l ≠ []) : minElement l < l.length := by
  cases l with
  | nil => exact absurd rfl h
  | cons x xs => exact minLoop_lt _ xs 0 x 1 (by simp) (by simp [Nat.add_comm])

theorem maxLoop_lt (n : Nat) : ∀ (l : List V) (m : Nat) (v : V) (first : Nat), m < n → first + l.length ≤ n → maxLoop m v first l < n
  | [], m, _, _, hm, _ => hm
  | x :: l, m, v, first, hm, hl => by
      rw [List.length_cons] at hl
      unfold maxLoop
      split
      · exact maxLoop_lt n l m v (first + 1) hm (by omega)
      · exact maxLoop_lt n l first x (first + 1) (by omega) (by omega)

theorem maxElement_inRange (l : List V) (h : l ≠ []) : maxElement l < l.length := by
  cases l with
  | nil => exact absurd rfl h
  | cons x xs => exact maxLoop_lt _ xs 0 x 1 (by simp) (by simp [Nat.add_comm])
end

/-! ## Niching -/

/-- The number of candidates that are associated with the reference `r`. -/
def assocCount (info : List (CandInfo Dbl)) (els : List (Nat × Nat)) (r : Nat) : Nat := els.countP (fun sol => refIndexOf info sol == some r)

/-- The invariant of the niching loop: there are enough references for the rest of the rounds. -/
structure NicheInvD (info : List (CandInfo Dbl)) (els0 : List (Nat × Nat)) (numRefs first last i : Nat) (s : NicheState) : Prop where
  nicheLen : s.niche.length = numRefs
  perm : s.els.Perm els0
  outside : ∀ q, q < first ∨ last ≤ q → s.els[q]? = els0[q]?
  nodup : s.refs.Nodup
  sorted : NicheSorted s.niche s.refs
  bound : ∀ r ∈ s.refs, r < numRefs
  supply : (∃ r ∈ s.refs, assocCount info els0 r ≠ 1) ∨ last - first ≤ s.refs.length + i

theorem findClosestAssociatedD_spec (info : List (CandInfo Dbl)) (part : List (Nat × Nat)) (ref : Nat) (hlt : ∀ e ∈ part, e.1 < info.length) (hne : part ≠ []) :
    ∃ c, findClosestAssociatedD info part ref = some c ∧ c < part.length := by
  have hkeys : part.mapM (fun sol => (do
      let i ← info[sol.1]?
      return if i.refIdx = ref then i.refDist else pinf : Option Dbl)) =
      some (part.map (fun sol => if refOf info sol = ref then ((info[sol.1]?).map (·.refDist)).getD (.fin 0) else pinf)) := by
    apply ListAux.mapM_eq_some_of_forall _ _ _ (by simp)
    intro i h h'
    have hl := hlt _ (List.getElem_mem h)
    rw [List.getElem_map]
    unfold refOf
    rw [List.getElem?_eq_getElem hl]
    rfl
  unfold findClosestAssociatedD
  rw [hkeys]
  refine ⟨_, rfl, ?_⟩
  have := minElement_inRange (part.map (fun sol => if refOf info sol = ref then ((info[sol.1]?).map (·.refDist)).getD (.fin 0) else pinf)) (by simpa using hne)
  simpa using this

theorem nicheRoundD_spec (info : List (CandInfo Dbl)) (els0 : List (Nat × Nat)) (numRefs first last i : Nat) (pick : Nat → Nat) (s : NicheState)
    (hpick : ∀ n, 0 < n → pick n < n) (hlt : ∀ e ∈ els0, e.1 < info.length) (hlast : last ≤ els0.length)
    (hi : first + i < last) (inv : NicheInvD info els0 numRefs first last i s) :
    ∃ s' ref k, nicheRoundD info first last pick i s = some s' ∧ NicheInvD info els0 numRefs first last (i + 1) s' ∧ ref ∈ s.refs ∧
      findClosestAssociatedD info ((s.els.take last).drop first) ref = some k ∧ first + k < last ∧
      (∀ q, s'.els[q]? = if q = first + i then s.els[first + k]? else if q = first + k then s.els[first + i]? else s.els[q]?) ∧ ∀ r ∈ s'.refs, r ∈ s.refs := by
  obtain ⟨h1, h2, h3, h4, h5, h6, h7⟩ := inv
  have hlen : s.els.length = els0.length := h2.length_eq
  have hlt' : ∀ e ∈ s.els, e.1 < info.length := fun e he => hlt e (h2.mem_iff.mp he)
  have hne : s.refs ≠ [] := by
    rintro h
    rcases h7 with ⟨r, hr, -⟩ | h7
    · rw [h] at hr; cases hr
    · rw [h, List.length_nil] at h7; omega
  obtain ⟨front, hfront⟩ : ∃ f, s.refs.head? = some f := by
    cases h : s.refs with
    | nil => exact absurd h hne
    | cons f _ => exact ⟨f, rfl⟩
  have hf0 : s.refs[0]? = some front := by rw [← List.head?_eq_getElem?]; exact hfront
  have hfm : front ∈ s.refs := List.mem_of_getElem? hf0
  have hgetn : ∀ r ∈ s.refs, s.niche[r]? = some (s.niche.getD r 0) := by
    intro r hr
    rw [List.getD_eq_getElem?_getD, List.getElem?_eq_getElem (by rw [h1]; exact h6 r hr)]; rfl
  obtain ⟨hg1, hg2, hg3⟩ := stdFind_spec (fun idx => decide (s.niche.getD idx 0 ≠ s.niche.getD front 0)) s.refs
  set lm := stdFind (fun idx => decide (s.niche.getD idx 0 ≠ s.niche.getD front 0)) s.refs with hlm
  have hlm0 : 0 < lm := by
    apply Nat.pos_of_ne_zero
    intro h0
    obtain ⟨x, hx1, hx2⟩ := hg3 (by rw [h0]; exact (List.getElem?_eq_some_iff.mp hf0).1)
    rw [h0, hf0] at hx1
    obtain rfl := Option.some.inj hx1
    simp at hx2
  obtain ⟨ref, href⟩ : ∃ r, (s.refs.take lm)[pick lm]? = some r := by
    refine ⟨_, List.getElem?_eq_getElem ?_⟩
    rw [List.length_take, Nat.min_eq_left hg1]
    exact hpick lm hlm0
  have href' : s.refs[pick lm]? = some ref := by
    rw [List.getElem?_take, if_pos (hpick lm hlm0)] at href
    exact href
  have hrm : ref ∈ s.refs := List.mem_of_getElem? href'
  have hmin : ∀ r ∈ s.refs, s.niche.getD ref 0 ≤ s.niche.getD r 0 := by
    intro r hr
    have e1 := hg2 _ ref (hpick lm hlm0) href'
    simp only [ne_eq, decide_not, Bool.not_eq_false', decide_eq_true_eq] at e1
    rw [e1]
    obtain ⟨k, hk, rfl⟩ := List.mem_iff_getElem.mp hr
    exact nicheSorted_get h5 (Nat.zero_le k) hf0 (List.getElem?_eq_getElem hk)
  obtain ⟨refs', hr1, hr2, hr3⟩ := incrementNicheCount_spec s.niche s.refs ref h4 (by rw [h1]; exact h6 ref hrm) h5 hrm hmin
  have hpl : ((s.els.take last).drop first).length = last - first := by rw [List.length_drop, List.length_take]; omega
  obtain ⟨k, hc1, hc2⟩ := findClosestAssociatedD_spec info ((s.els.take last).drop first) ref
    (fun e he => hlt' e (List.mem_of_mem_take (List.mem_of_mem_drop he))) (List.ne_nil_of_length_pos (by omega))
  have hkl : first + k < last := by omega
  obtain ⟨els', he1, he2, he3⟩ := swap?_eq (l := s.els) (i := first + k) (j := first + i) (by omega) (by omega)
  have herase : (eraseFirstStable (fun r => r == ref) refs').2 = refs'.erase ref := by
    rw [(C48_erase_first_stable _ _).2, List.erase_eq_eraseP]
    congr 1
    funext r
    exact Bool.beq_comm
  have hnd' : refs'.Nodup := hr2.nodup_iff.mpr h4
  have hcnt : s.els.countP (fun sol => refIndexOf info sol == some ref) = assocCount info els0 ref := h2.countP_eq _
  set refs'' := if s.els.countP (fun sol => refIndexOf info sol == some ref) = 1 then (eraseFirstStable (fun r => r == ref) refs').2 else refs' with hrefs''
  have hsub : List.Sublist refs'' refs' := by
    rw [hrefs'']
    split
    · rw [herase]; exact List.erase_sublist
    · exact List.Sublist.refl _
  refine ⟨⟨s.niche.set ref (s.niche.getD ref 0 + 1), refs'', els'⟩, ref, k, ?_, ?_, hrm, hc1, hkl, he3, fun r hr => hr2.mem_iff.mp (hsub.subset hr)⟩
  · unfold nicheRoundD
    simp only [hfront, hgetn front hfm, Option.bind_eq_bind, Option.bind_some]
    rw [← hlm, href]
    simp only [Option.bind_some, hr1, hc1]
    rw [if_pos ⟨hi, hkl⟩, he1]
    rfl
  · refine ⟨by simp [h1], he2.trans h2, ?_, hnd'.sublist hsub, hr3.sublist hsub, ?_, ?_⟩
    · intro q hq
      show els'[q]? = _
      rw [he3, if_neg (by omega), if_neg (by omega)]
      exact h3 q hq
    · intro r hr
      exact h6 r (hr2.mem_iff.mp (hsub.subset hr))
    · rcases h7 with ⟨r, hr, hrc⟩ | h7
      · left
        refine ⟨r, ?_, hrc⟩
        show r ∈ refs''
        rw [hrefs'']
        split
        · rename_i hone
          rw [herase, List.Nodup.mem_erase_iff hnd']
          refine ⟨?_, hr2.mem_iff.mpr hr⟩
          rintro rfl
          exact hrc (by rw [← hcnt]; exact hone)
        · exact hr2.mem_iff.mpr hr
      · right
        have hl := hr2.length_eq
        have : refs'.length ≤ refs''.length + 1 := by
          rw [hrefs'']
          split
          · rw [herase, List.length_erase]; split <;> omega
          · omega
        show last - first ≤ refs''.length + (i + 1)
        omega

theorem nicheLoopD_spec (info : List (CandInfo Dbl)) (els0 : List (Nat × Nat)) (numRefs first last : Nat) (pick : Nat → Nat → Nat) (s0 : NicheState)
    (hpick : ∀ i n, 0 < n → pick i n < n) (hlt : ∀ e ∈ els0, e.1 < info.length) (hlast : last ≤ els0.length) (inv : NicheInvD info els0 numRefs first last 0 s0) :
    ∀ k, first + k ≤ last → ∃ s, nicheLoopD info first last pick k s0 = some s ∧ NicheInvD info els0 numRefs first last k s := by
  intro k
  induction k with
  | zero => intro _; exact ⟨s0, rfl, inv⟩
  | succ k ih =>
    intro hk
    obtain ⟨s, h1, h2⟩ := ih (by omega)
    obtain ⟨s', -, -, h3, h4, -⟩ := nicheRoundD_spec info els0 numRefs first last k (pick k) s (hpick k) hlt hlast (by omega) h2
    refine ⟨s', ?_, h4⟩
    unfold nicheLoopD at h1 ⊢
    rw [List.range_succ, List.foldlM_append, h1]
    simp [h3]

/-- The references of the split front are enough. -/
theorem supply_initial (info : List (CandInfo Dbl)) (els : List (Nat × Nat)) (first last : Nat) (hlt : ∀ e ∈ els, e.1 < info.length) (hl : last ≤ els.length) (refs : List Nat)
    (hnd : refs.Nodup) (hmem : ∀ r, r ∈ refs ↔ ∃ e ∈ (els.take last).drop first, refOf info e = r) :
    (∃ r ∈ refs, assocCount info els r ≠ 1) ∨ last - first ≤ refs.length + 0 := by
  by_cases h : ∃ r ∈ refs, assocCount info els r ≠ 1
  · exact Or.inl h
  right
  push Not at h
  set part := (els.take last).drop first with hpart
  have hsub : List.Sublist part els := (List.drop_sublist _ _).trans (List.take_sublist _ _)
  have hpnd : (part.map (refOf info)).Nodup := by
    rw [List.nodup_iff_pairwise_ne, List.pairwise_map, List.pairwise_iff_getElem]
    intro i j hi hj hij heq
    have h1 := h _ ((hmem _).mpr ⟨part[i], List.getElem_mem hi, rfl⟩)
    have hge : part.countP (fun sol => refIndexOf info sol == some (refOf info part[i])) ≤ 1 := h1 ▸ hsub.countP_le
    have hpos : 0 < part.countP (fun sol => refIndexOf info sol == some (refOf info part[i])) :=
      List.countP_pos_iff.mpr ⟨part[i], List.getElem_mem hi, by rw [refIndexOf_eq info _ (hlt _ (hsub.subset (List.getElem_mem hi)))]; simp⟩
    have := countP_one_unique _ part (Nat.le_antisymm hge hpos) i j _ _ (List.getElem?_eq_getElem hi) (List.getElem?_eq_getElem hj)
      (by rw [refIndexOf_eq info _ (hlt _ (hsub.subset (List.getElem_mem hi)))]; simp)
      (by rw [refIndexOf_eq info _ (hlt _ (hsub.subset (List.getElem_mem hj)))]; simpa using heq.symm)
    omega
  have hp : refs.Perm (part.map (refOf info)) := (List.perm_ext_iff_of_nodup hnd hpnd).mpr (by intro r; rw [hmem r, List.mem_map])
  have := hp.length_eq
  rw [List.length_map, hpart, List.length_drop, List.length_take] at this
  omega

/-! ## Association -/

theorem resizeInfoD_length (info : List (CandInfo Dbl)) (n : Nat) : (resizeInfoD info n).length = n := by
  unfold resizeInfoD
  rw [List.length_append, List.length_take, List.length_replicate]
  omega

theorem resizeInfoD_self (info : List (CandInfo Dbl)) : resizeInfoD info info.length = info := by
  unfold resizeInfoD
  simp

theorem elementwiseMaxD_fold (m : Nat) : ∀ (rows : List (List Dbl)) (first : List Dbl), first.length = m → IsMatrix m rows →
    ∃ v, rows.foldlM elementwiseMaxD first = some v ∧ v.length = m ∧ ∀ j : Nat, first[j]? = some pinf ∨ (∃ r ∈ rows, r[j]? = some pinf ∧ ∀ x y, first[j]? = some x → y ∈ rows → y[j]? ≠ some nan ∧ x ≠ nan) → v[j]? = some pinf
  | [], first, hf, _ => ⟨first, rfl, hf, by intro j h; rcases h with h | ⟨r, hr, -⟩; exact h; cases hr⟩
  | r :: rows, first, hf, hm => by
      have hr := hm r (by simp)
      obtain ⟨v, h1, h2, h3⟩ := elementwiseMaxD_fold m rows (List.zipWith Dbl.max first r) (by simp; omega) (fun x hx => hm x (by simp [hx]))
      refine ⟨v, ?_, h2, ?_⟩
      · rw [List.foldlM_cons]
        unfold elementwiseMaxD at h1 ⊢
        rw [if_pos (by omega)]
        exact h1
      · intro j h
        apply h3
        by_cases hj : j < m
        · have e1 : first[j]? = some first[j] := List.getElem?_eq_getElem (by omega)
          have e2 : r[j]? = some r[j] := List.getElem?_eq_getElem (by omega)
          have e3 : (List.zipWith Dbl.max first r)[j]? = some (Dbl.max first[j] r[j]) := by rw [List.getElem?_zipWith, e1, e2]
          rw [e3]
          rcases h with h | ⟨r', hr', hp, hn⟩
          · left
            rw [e1] at h
            rw [Option.some.inj h]
            cases r[j] <;> rfl
          · obtain ⟨hn1, hn2⟩ := hn _ r e1 (by simp)
            rw [e2] at hn1
            have hn1' : r[j] ≠ nan := fun h => hn1 (by rw [h])
            rcases List.mem_cons.mp hr' with rfl | hr'
            · left
              rw [e2] at hp
              rw [Option.some.inj hp]
              generalize first[j] = a at hn2
              cases a <;> simp_all [Dbl.max, Dbl.lt]
            · right
              refine ⟨r', hr', hp, ?_⟩
              intro x y hx hy
              refine ⟨(hn _ y e1 (by simp [hy])).1, ?_⟩
              rw [← Option.some.inj hx]
              unfold Dbl.max
              split <;> assumption
        · exfalso
          rcases h with h | ⟨r', hr', hp, -⟩
          · rw [List.getElem?_eq_none (by omega)] at h; cases h
          · rw [List.getElem?_eq_none (by rw [hm r' hr']; omega)] at hp; cases hp

theorem elementwiseMinD_fold (m : Nat) : ∀ (rows : List (List Dbl)) (first : List Dbl), first.length = m → IsMatrix m rows →
    ∃ v, rows.foldlM elementwiseMinD first = some v ∧ v.length = m
  | [], first, hf, _ => ⟨first, rfl, hf⟩
  | r :: rows, first, hf, hm => by
      have hr := hm r (by simp)
      obtain ⟨v, h1, h2⟩ := elementwiseMinD_fold m rows (List.zipWith Dbl.min first r) (by simp; omega) (fun x hx => hm x (by simp [hx]))
      refine ⟨v, ?_, h2⟩
      rw [List.foldlM_cons]
      unfold elementwiseMinD at h1 ⊢
      rw [if_pos (by omega)]
      exact h1

theorem asfD_ok (recip : Bool) (m : Nat) (hm : 0 < m) (ideal weights fitness : List Dbl) (h1 : ideal.length = m) (h2 : weights.length = m) (h3 : fitness.length = m) :
    ∃ v, asfD recip ideal weights fitness = some v := by
  unfold asfD
  rw [if_pos ⟨by intro h; rw [h] at h1; simp at h1; omega, by omega, by omega⟩]
  exact ⟨_, rfl⟩

theorem updateExtremePointsD_spec (recip : Bool) (m : Nat) (ideal : List Dbl) (extreme fmat : List (List Dbl)) (hi : ideal.length = m) (he : IsMatrix m extreme) (hm : IsMatrix m fmat)
    (hne : fmat ≠ []) : ∃ v, updateExtremePointsD recip ideal extreme fmat = some v ∧ v.length = m ∧ IsMatrix m v := by
  have hone : ∀ dim, dim < m → ∃ r, (do
      let weights ← weightVectorD ideal.length dim
      let popDistances ← fmat.mapM (asfD recip ideal weights)
      let extDistances ← extreme.mapM (asfD recip ideal weights)
      let idx ← argmin false (popDistances ++ extDistances)
      if idx ≥ fmat.length then extreme[idx - fmat.length]? else fmat[idx]? : Option (List Dbl)) = some r ∧ r.length = m := by
    intro dim hdim
    obtain ⟨w, hw1, hw2⟩ : ∃ w, weightVectorD ideal.length dim = some w ∧ w.length = m := by
      refine ⟨_, if_pos (by omega), by simp [hi]⟩
    have hall : ∀ rows : List (List Dbl), IsMatrix m rows → ∃ ds, rows.mapM (asfD recip ideal w) = some ds ∧ ds.length = rows.length := by
      intro rows
      induction rows with
      | nil => intro _; exact ⟨[], rfl, rfl⟩
      | cons r rows ih =>
        intro h
        obtain ⟨v, hv⟩ := asfD_ok recip m (by omega) ideal w r hi hw2 (h r (by simp))
        obtain ⟨ds, hd1, hd2⟩ := ih (fun r hr => h r (by simp [hr]))
        exact ⟨v :: ds, by rw [List.mapM_cons, hv, hd1]; rfl, by simp [hd2]⟩
    obtain ⟨p, hp1, hp2⟩ := hall fmat hm
    obtain ⟨q, hq1, hq2⟩ := hall extreme he
    have hpos : 0 < fmat.length := List.length_pos_iff.mpr hne
    have hlen : (p ++ q).length = fmat.length + extreme.length := by simp [hp2, hq2]
    have hb := minElement_inRange (p ++ q) (List.ne_nil_of_length_pos (by omega))
    have hidx : argmin false (p ++ q) = some (minElement (p ++ q)) := by
      unfold argmin
      rw [if_pos (by omega)]
      rfl
    rw [hlen] at hb
    simp only [hw1, hp1, hq1, hidx, Option.bind_eq_bind, Option.bind_some]
    split
    · exact ⟨_, List.getElem?_eq_getElem (by omega), he _ (List.getElem_mem _)⟩
    · exact ⟨_, List.getElem?_eq_getElem (by omega), hm _ (List.getElem_mem _)⟩
  choose f hf1 hf2 using hone
  refine ⟨(List.range m).attach.map (fun d => f d.1 (List.mem_range.mp d.2)), ?_, by simp, ?_⟩
  · unfold updateExtremePointsD
    apply ListAux.mapM_eq_some_of_forall _ _ _ (by simp [hi])
    intro i h h'
    simp only [List.getElem_map, List.getElem_attach, List.getElem_range]
    exact hf1 i (by simpa [hi] using h)
  · intro r hr
    obtain ⟨d, -, rfl⟩ := List.mem_map.mp hr
    exact hf2 _ _

theorem associateOneD_spec (fl : MultiFlags) (m : Nat) (lines : List (List Dbl)) (ideal nadir row : List Dbl) (hl : IsMatrix m lines) (hne : lines ≠ []) (h1 : row.length = m)
    (h2 : ideal.length = m) (h3 : nadir.length = m) : ∃ i d, associateOneD fl lines ideal nadir row = some (i, d) ∧ i < lines.length := by
  have hf : normalizeFitnessVecD fl.recip row ideal nadir = some (List.zipWith (fun f p => divR fl.recip (sub p.1 f) (Dbl.max (sub p.1 p.2) eps8D)) row (ideal.zip nadir)) :=
    if_pos ⟨by omega, by omega⟩
  set f := List.zipWith (fun f p => divR fl.recip (sub p.1 f) (Dbl.max (sub p.1 p.2) eps8D)) row (ideal.zip nadir) with hfd
  have hfl : f.length = m := by rw [hfd]; simp; omega
  have hb : maxElement (lines.map (fun line => innerProductD fl.fused f line)) < lines.length := by
    simpa using maxElement_inRange (lines.map (fun line => innerProductD fl.fused f line)) (by simpa using hne)
  obtain ⟨line, hline⟩ : ∃ line, lines[maxElement (lines.map (fun line => innerProductD fl.fused f line))]? = some line := ⟨_, List.getElem?_eq_getElem hb⟩
  obtain ⟨d, hd⟩ : ∃ d, perpendicularDistanceSqD fl.fused fl.sum line f = some d := by
    unfold perpendicularDistanceSqD
    rw [if_pos (by rw [hfl]; exact hl _ (List.mem_of_getElem? hline))]
    exact ⟨_, rfl⟩
  refine ⟨_, d, ?_, hb⟩
  unfold associateOneD
  simp only [hf, hline, hd, Option.bind_eq_bind, Option.bind_some, Option.pure_def]

theorem associatePopWithRefsD_spec (fl : MultiFlags) (m : Nat) (hm0 : 0 < m) (s : Nsga3 Dbl) (hs : Nsga3Ok m s) (fmat : List (List Dbl)) (hm : IsMatrix m fmat) (hne : fmat ≠ [])
    (hinfo : s.info.length = fmat.length) (els : List (Nat × Nat)) (hnd : (els.map (·.1)).Nodup) (hlt : ∀ e ∈ els, e.1 < fmat.length) :
    ∃ s' best, associatePopWithRefsD fl s fmat els = some s' ∧ Nsga3Ok m s' ∧ s'.refLines = s.refLines ∧ s'.nicheCounts = s.nicheCounts ∧ s'.info.length = fmat.length ∧ s'.nadir.length = m ∧
      maxFitnessD fmat = some best ∧ elementwiseMaxD s.ideal best = some s'.ideal ∧
      (∀ e ∈ els, ∃ row i d, fmat[e.1]? = some row ∧ associateOneD fl s.refLines s'.ideal s'.nadir row = some (i, d) ∧ i < s.refLines.length ∧
        s'.info[e.1]? = (s.info[e.1]?).map (fun c => { c with refIdx := i, refDist := d })) ∧
      ∀ k, k ∉ els.map (·.1) → s'.info[k]? = s.info[k]? := by
  obtain ⟨h1, h2, h3, h4, h5⟩ := hs
  obtain ⟨best, hb1, hb2⟩ : ∃ v, maxFitnessD fmat = some v ∧ v.length = m := by
    cases fmat with
    | nil => exact absurd rfl hne
    | cons r rows =>
      obtain ⟨v, hv1, hv2, -⟩ := elementwiseMaxD_fold m rows r (hm r (by simp)) (fun x hx => hm x (by simp [hx]))
      exact ⟨v, hv1, hv2⟩
  obtain ⟨ideal, hi1, hi2⟩ : ∃ v, elementwiseMaxD s.ideal best = some v ∧ v.length = m := ⟨_, if_pos (by omega), by simp; omega⟩
  obtain ⟨ext, hx1, hx2, hxm⟩ := updateExtremePointsD_spec fl.recip m ideal s.extreme fmat hi2 h5 hm hne
  obtain ⟨nadir, hn1, hn2⟩ : ∃ v, frontNadirD ext = some v ∧ v.length = m := by
    cases ext with
    | nil => simp at hx2; omega
    | cons r rows => exact elementwiseMinD_fold m rows r (hxm r (by simp)) (fun x hx => hxm x (by simp [hx]))
  have hone : ∀ e ∈ els, ∃ row i d, fmat[e.1]? = some row ∧ associateOneD fl s.refLines ideal nadir row = some (i, d) ∧ i < s.refLines.length := by
    intro e he
    have hl := hlt e he
    obtain ⟨i, d, ha, hb⟩ := associateOneD_spec fl m s.refLines ideal nadir fmat[e.1] h1 h2 (hm _ (List.getElem_mem hl)) hi2 hn2
    exact ⟨fmat[e.1], i, d, List.getElem?_eq_getElem hl, ha, hb⟩
  obtain ⟨v, hv1, hv2, hv3, hv4⟩ := foldlM_updates (associateStepD fl s.refLines ideal nadir fmat)
    (fun e c => match fmat[e.1]? with
      | none => c
      | some row => match associateOneD fl s.refLines ideal nadir row with
        | none => c
        | some (i, d) => { c with refIdx := i, refDist := d }) fmat.length els hnd hlt
    (by intro e he v c hv hc
        obtain ⟨row, i, d, hr, ha, -⟩ := hone e he
        unfold associateStepD
        simp only [hr, ha, hc, Option.bind_eq_bind, Option.bind_some]
        exact storeAt_eq v e.1 _ (by have := hlt e he; omega)) (resizeInfoD s.info fmat.length) (resizeInfoD_length _ _)
  have hrs : resizeInfoD s.info fmat.length = s.info := by rw [← hinfo]; exact resizeInfoD_self _
  refine ⟨{ s with ideal := ideal, extreme := ext, nadir := nadir, info := v }, best, ?_, ⟨h1, h2, h3, hi2, hxm⟩, rfl, rfl, hv2, hn2, hb1, hi1, ?_, ?_⟩
  · unfold associatePopWithRefsD
    rw [if_pos ⟨List.length_pos_iff.mpr hne, h2⟩]
    simp only [hb1, hi1, hx1, hn1, hv1, Option.bind_eq_bind, Option.bind_some, Option.pure_def]
  · intro e he
    obtain ⟨row, i, d, hr, ha, hb⟩ := hone e he
    refine ⟨row, i, d, hr, ha, hb, ?_⟩
    show v[e.1]? = _
    rw [hv3 e he, hrs]
    simp only [hr, ha]
  · intro k hk
    show v[k]? = _
    rw [hv4 k hk, hrs]

/-- Everything before the niching loop. -/
theorem nsga3PrepareD_spec (fl : MultiFlags) (sort : SortNat) (hsort : SortNatContract sort) (m : Nat) (hm0 : 0 < m) (s : Nsga3 Dbl) (hs : Nsga3Ok m s) (fmat : List (List Dbl))
    (hm : IsMatrix m fmat) (els : List (Nat × Nat)) (hp : (els.map (·.1)).Perm (List.range fmat.length)) (hsorted : els.Pairwise (fun a b => a.2 ≤ b.2)) (popSize : Nat)
    (h0 : 0 < popSize) (hlt : popSize < fmat.length) :
    ∃ s' best first last loop, nsga3PrepareD fl sort s fmat els popSize = some (s', (first, last), loop) ∧ partialFront els popSize = some (first, last) ∧
      Nsga3Ok m s' ∧ s'.refLines = s.refLines ∧ s'.info.length = fmat.length ∧ s'.nadir.length = m ∧ maxFitnessD fmat = some best ∧ elementwiseMaxD s.ideal best = some s'.ideal ∧
      (∀ e ∈ els.take last, ∃ row c, fmat[e.1]? = some row ∧ s'.info[e.1]? = some c ∧ c.rank = e.2 ∧ c.refIdx < s.refLines.length ∧
        associateOneD fl s.refLines s'.ideal s'.nadir row = some (c.refIdx, c.refDist)) ∧
      (∀ r, r ∈ loop.refs ↔ ∃ e ∈ (els.take last).drop first, refOf s'.info e = r) ∧
      loop.els = els ∧ NicheInvD s'.info els s.refLines.length first last 0 loop := by
  have hlen : els.length = fmat.length := by simpa using hp.length_eq
  have hnd : (els.map (·.1)).Nodup := hp.nodup_iff.mpr List.nodup_range
  have hb : ∀ e ∈ els, e.1 < fmat.length := fun e he => by simpa using hp.mem_iff.mp (List.mem_map.mpr ⟨e, he, rfl⟩)
  obtain ⟨first, last, hpf, hf1, hf2, hf3, -, -⟩ := partialFront_spec els hsorted popSize h0 (by omega)
  have hne : fmat ≠ [] := List.ne_nil_of_length_pos (by omega)
  obtain ⟨info, hi1, hi2, hi3⟩ := storeRanks_spec (resizeInfoD s.info fmat.length) els hnd (fun e he => by rw [resizeInfoD_length]; exact hb e he)
  rw [resizeInfoD_length] at hi2
  have hsub : ∀ k, List.Sublist ((els.take k).map (·.1)) (els.map (·.1)) := fun k => (List.take_sublist _ _).map _
  obtain ⟨s', best, ha1, ha2, ha3, ha4, ha5, ha6, ha7, ha7', ha8, -⟩ := associatePopWithRefsD_spec fl m hm0 { s with info := info } ⟨hs.1, hs.2, hs.3, hs.4, hs.5⟩ fmat hm hne hi2 (els.take last)
    (hnd.sublist (hsub last)) (fun e he => hb e (List.mem_of_mem_take he))
  have hall : ∀ e ∈ els.take last, ∃ row c, fmat[e.1]? = some row ∧ s'.info[e.1]? = some c ∧ c.rank = e.2 ∧ c.refIdx < s.refLines.length ∧
      associateOneD fl s.refLines s'.ideal s'.nadir row = some (c.refIdx, c.refDist) := by
    intro e he
    obtain ⟨row, i, d, h1, h2, h2', h3⟩ := ha8 e he
    have h4 := hi3 e (List.mem_of_mem_take he)
    have hel := hb e (List.mem_of_mem_take he)
    rw [List.getElem?_eq_getElem (l := resizeInfoD s.info fmat.length) (by rw [resizeInfoD_length]; exact hel)] at h4
    have h5 : s'.info[e.1]? = some ⟨e.2, i, d⟩ := by rw [h3]; show (info[e.1]?).map _ = _; rw [h4]; rfl
    exact ⟨row, ⟨e.2, i, d⟩, h1, h5, rfl, h2', h2⟩
  have href : ∀ e ∈ els.take last, refOf s'.info e < s.refLines.length := by
    intro e he
    obtain ⟨row, c, -, h2, -, h4, -⟩ := hall e he
    unfold refOf
    rw [h2]
    exact h4
  have hsubf : ∀ e ∈ els.take first, e ∈ els.take last := by
    intro e he
    exact (List.take_sublist_take_left (by omega : first ≤ last)).subset he
  have hncl : s'.nicheCounts.length = s.refLines.length := by rw [ha4]; exact hs.niche
  obtain ⟨niche, hn1, hn2, hn3⟩ := recalcNicheCounts_spec s'.info s'.nicheCounts (els.take first) (fun e he => by rw [ha5]; exact hb e (List.mem_of_mem_take he))
    (fun e he => by rw [hncl]; exact href e (hsubf e he))
  obtain ⟨refs, hr1, hr2, hr3, hr4⟩ := referenceSetOf_spec sort hsort s'.info niche ((els.take last).drop first)
    (fun e he => by rw [ha5]; exact hb e (List.mem_of_mem_take (List.mem_of_mem_drop he)))
  refine ⟨s', best, first, last, ⟨niche, refs, els⟩, ?_, hpf, ha2, ha3, ha5, ha6, ha7, ha7', hall, hr4, rfl, ?_⟩
  · unfold nsga3PrepareD
    simp only [hpf, hi1, ha1, hn1, hr1, Option.bind_eq_bind, Option.bind_some, Option.pure_def]
    rw [if_neg (by omega)]
  · refine ⟨by show niche.length = _; rw [hn2, hncl], List.Perm.refl _, fun _ _ => rfl, hr2, hr3, ?_, ?_⟩
    · intro r hr
      obtain ⟨e, he, rfl⟩ := (hr4 r).mp hr
      exact href e (List.mem_of_mem_drop he)
    · exact supply_initial s'.info els first last (fun e he => by rw [ha5]; exact hb e he) hf3 refs hr2 hr4

/-! ## One replacement -/

/-- One replacement, step by step. -/
theorem nsga3NextD_steps (fl : MultiFlags) (sort : SortNat) (hsort : SortNatContract sort) (pick : Nat → Nat → Nat) (hpick : ∀ i n, 0 < n → pick i n < n) (m : Nat) (hm0 : 0 < m)
    (s : Nsga3 Dbl) (hs : Nsga3Ok m s) (fmat : List (List Dbl)) (hm : IsMatrix m fmat)
    (els : List (Nat × Nat)) (hp : (els.map (·.1)).Perm (List.range fmat.length)) (hsorted : els.Pairwise (fun a b => a.2 ≤ b.2)) (popSize : Nat) (h0 : 0 < popSize)
    (hlt : popSize < fmat.length) :
    ∃ (s' : Nsga3 Dbl) (best : List Dbl) (first last : Nat) (loop loop' : NicheState) (info : List (CandInfo Dbl)),
      nsga3NextD fl sort pick s fmat els popSize = some ((loop'.els.take popSize).map (·.1), { s' with nicheCounts := loop'.niche, info := info }) ∧
      partialFront els popSize = some (first, last) ∧ first ≤ popSize ∧ popSize ≤ last ∧ last ≤ els.length ∧
      nicheLoopD s'.info first last pick (popSize - first) loop = some loop' ∧ loop.els = els ∧ NicheInvD s'.info els s.refLines.length first last 0 loop ∧
      NicheInvD s'.info els s.refLines.length first last (popSize - first) loop' ∧ (∀ r, r ∈ loop.refs ↔ ∃ e ∈ (els.take last).drop first, refOf s'.info e = r) ∧
      Nsga3Ok m s' ∧ s'.refLines = s.refLines ∧ s'.info.length = fmat.length ∧ s'.nadir.length = m ∧ maxFitnessD fmat = some best ∧ elementwiseMaxD s.ideal best = some s'.ideal ∧
      (∀ e ∈ els.take last, ∃ row c, fmat[e.1]? = some row ∧ s'.info[e.1]? = some c ∧ c.rank = e.2 ∧
        associateOneD fl s.refLines s'.ideal s'.nadir row = some (c.refIdx, c.refDist)) ∧
      info.length = popSize ∧ (∀ (p : Nat) (e : Nat × Nat), (loop'.els.take popSize)[p]? = some e → e ∈ els.take last ∧ info[p]? = s'.info[e.1]?) := by
  have hlen : els.length = fmat.length := by simpa using hp.length_eq
  have hb : ∀ e ∈ els, e.1 < fmat.length := fun e he => by simpa using hp.mem_iff.mp (List.mem_map.mpr ⟨e, he, rfl⟩)
  obtain ⟨s', best, first, last, loop, h1, h2, h3, h4, h5, h6, h7, h7', h8, h9, h10, h11⟩ := nsga3PrepareD_spec fl sort hsort m hm0 s hs fmat hm els hp hsorted popSize h0 hlt
  obtain ⟨first', last', hpf', hf1, hf2, hf3, -, -⟩ := partialFront_spec els hsorted popSize h0 (by omega)
  rw [h2] at hpf'
  obtain ⟨rfl, rfl⟩ := Prod.mk.inj (Option.some.inj hpf')
  obtain ⟨st, hl1, hl2⟩ := nicheLoopD_spec s'.info els s.refLines.length first last pick loop hpick (fun e he => by rw [h5]; exact hb e he) hf3 h11 (popSize - first) (by omega)
  have hll : st.els.length = els.length := hl2.perm.length_eq
  have hmemlast : ∀ (p : Nat) (e : Nat × Nat), (st.els.take popSize)[p]? = some e → e ∈ els.take last := by
    intro p e he
    rw [List.getElem?_take] at he
    split at he
    · rename_i hpp
      by_cases hpf : p < first
      · rw [hl2.outside p (Or.inl hpf)] at he
        apply List.mem_of_getElem? (i := p)
        rw [List.getElem?_take, if_pos (by omega)]; exact he
      · have : e ∈ (els.take last).drop first := by
          rw [← (slice_perm _ _ first last hl2.perm (by omega) hl2.outside).mem_iff]
          apply List.mem_of_getElem? (i := p - first)
          rw [slice_get _ _ _ _ (by omega), show first + (p - first) = p by omega]
          exact he
        exact List.mem_of_mem_drop this
    · cases he
  have hinfo : (st.els.take popSize).mapM (fun sol => s'.info[sol.1]?) = some ((st.els.take popSize).map (fun sol => (s'.info[sol.1]?).getD ⟨0, 0, .fin 0⟩)) := by
    apply ListAux.mapM_eq_some_of_forall _ _ _ (by simp)
    intro i h h'
    rw [List.getElem_map]
    have := hb _ (hl2.perm.mem_iff.mp (List.mem_of_mem_take (List.getElem_mem h)))
    rw [List.getElem?_eq_getElem (by rw [h5]; exact this)]
    rfl
  refine ⟨s', best, first, last, loop, st, (st.els.take popSize).map (fun sol => (s'.info[sol.1]?).getD ⟨0, 0, .fin 0⟩), ?_, h2, hf1, hf2, hf3, hl1, h10, h11, hl2, h9, h3, h4, h5, h6, h7, h7', ?_, ?_, ?_⟩
  · unfold nsga3NextD
    rw [h1]
    simp only [Option.bind_eq_bind, Option.bind_some, hl1, frontsResize]
    rw [if_pos (by omega)]
    simp only [Option.bind_some, createPopulation, hinfo, Option.bind_eq_bind, Option.pure_def]
  · intro e he
    obtain ⟨row, c, e1, e2, e3, -, e4⟩ := h8 e he
    exact ⟨row, c, e1, e2, e3, e4⟩
  · rw [List.length_map, List.length_take]; omega
  · intro p e he
    refine ⟨hmemlast p e he, ?_⟩
    rw [List.getElem?_map, he]
    have := hb _ (List.mem_of_mem_take (hmemlast p e he))
    simp only [Option.map_some]
    rw [List.getElem?_eq_getElem (by rw [h5]; exact this), Option.getD_some]

/-! ## An infinite ideal point -/

theorem normalized_nan (recip : Bool) (x q e : Dbl) : divR recip (sub pinf x) (Dbl.max (sub pinf q) e) = nan := by
  cases x <;> cases q <;> cases recip <;> cases e <;> simp [divR, sub, add, neg, Dbl.max, Dbl.lt, div, mul, scaledInf]

theorem mulAdd_nan (fused : Bool) (a b c : Dbl) (h : a = nan ∨ b = nan ∨ c = nan) : mulAdd fused a b c = nan := by
  rcases h with rfl | rfl | rfl
  · cases fused <;> cases b <;> cases c <;> rfl
  · cases fused <;> cases a <;> cases c <;> rfl
  · cases fused <;> cases a <;> cases b <;> rfl

theorem innerFold_nan (fused : Bool) : ∀ (l : List (Dbl × Dbl)) (acc : Dbl), (acc = nan ∨ ∃ p ∈ l, p.1 = nan ∨ p.2 = nan) → l.foldl (fun acc p => mulAdd fused p.1 p.2 acc) acc = nan
  | [], acc, h => by rcases h with h | ⟨p, hp, -⟩; exact h; cases hp
  | p :: l, acc, h => by
      rw [List.foldl_cons]
      apply innerFold_nan
      rcases h with rfl | ⟨q, hq, h⟩
      · exact Or.inl (mulAdd_nan _ _ _ _ (Or.inr (Or.inr rfl)))
      · rcases List.mem_cons.mp hq with rfl | hq
        · left
          rcases h with h | h
          · exact mulAdd_nan _ _ _ _ (Or.inl h)
          · exact mulAdd_nan _ _ _ _ (Or.inr (Or.inl h))
        · exact Or.inr ⟨q, hq, h⟩

theorem innerProductD_nan (fused : Bool) (a b : List Dbl) (hl : a.length = b.length) (h : nan ∈ a ∨ nan ∈ b) : innerProductD fused a b = nan := by
  apply innerFold_nan
  right
  rcases h with h | h
  · obtain ⟨i, hi, he⟩ := List.mem_iff_getElem.mp h
    exact ⟨(a.zip b)[i]'(by simp; omega), List.getElem_mem _, Or.inl (by simpa using he)⟩
  · obtain ⟨i, hi, he⟩ := List.mem_iff_getElem.mp h
    exact ⟨(a.zip b)[i]'(by simp; omega), List.getElem_mem _, Or.inr (by simpa using he)⟩

theorem maxLoop_nan : ∀ (l : List Dbl) (m first : Nat), (∀ x ∈ l, x = nan) → maxLoop m nan first l = m
  | [], _, _, _ => rfl
  | x :: l, m, first, h => by
      have : x = nan := h x (by simp)
      subst this
      unfold maxLoop
      have hn : ¬ (nan : Dbl) < nan := by decide
      simp only [hn, not_false_eq_true, if_true]
      exact maxLoop_nan l m (first + 1) (fun y hy => h y (by simp [hy]))

theorem maxElement_nan (l : List Dbl) (h : ∀ x ∈ l, x = nan) : maxElement l = 0 := by
  cases l with
  | nil => rfl
  | cons x xs =>
    have : x = nan := h x (by simp)
    subst this
    exact maxLoop_nan xs 0 1 (fun y hy => h y (by simp [hy]))

theorem minLoop_nan : ∀ (l : List Dbl) (m first : Nat), (∀ x ∈ l, x = nan) → minLoop m nan first l = m
  | [], _, _, _ => rfl
  | x :: l, m, first, h => by
      have : x = nan := h x (by simp)
      subst this
      unfold minLoop
      have hn : ¬ (nan : Dbl) < nan := by decide
      simp only [hn, not_false_eq_true, if_true]
      exact minLoop_nan l m (first + 1) (fun y hy => h y (by simp [hy]))

theorem minElement_nan (l : List Dbl) (h : ∀ x ∈ l, x = nan) : minElement l = 0 := by
  cases l with
  | nil => rfl
  | cons x xs =>
    have : x = nan := h x (by simp)
    subst this
    exact minLoop_nan xs 0 1 (fun y hy => h y (by simp [hy]))

/-- The sum of numbers is not a number if one of them is not. -/
def PropagatesNan (sum : List Dbl → Dbl) : Prop := ∀ l, nan ∈ l → sum l = nan

theorem associateOneD_infinite (fl : MultiFlags) (hsum : PropagatesNan fl.sum) (m : Nat) (lines : List (List Dbl)) (ideal nadir row : List Dbl) (hl : IsMatrix m lines) (hne : lines ≠ [])
    (h1 : row.length = m) (h2 : ideal.length = m) (h3 : nadir.length = m) (j : Nat) (hj : ideal[j]? = some pinf) : associateOneD fl lines ideal nadir row = some (0, nan) := by
  have hf : normalizeFitnessVecD fl.recip row ideal nadir = some (List.zipWith (fun f p => divR fl.recip (sub p.1 f) (Dbl.max (sub p.1 p.2) eps8D)) row (ideal.zip nadir)) :=
    if_pos ⟨by omega, by omega⟩
  set f := List.zipWith (fun f p => divR fl.recip (sub p.1 f) (Dbl.max (sub p.1 p.2) eps8D)) row (ideal.zip nadir) with hfd
  have hfl : f.length = m := by rw [hfd]; simp; omega
  obtain ⟨hjl, hj'⟩ := List.getElem?_eq_some_iff.mp hj
  have hnan : nan ∈ f := by
    apply List.mem_of_getElem? (i := j)
    rw [List.getElem?_eq_getElem (by omega)]
    simp only [hfd, List.getElem_zipWith, List.getElem_zip, hj', normalized_nan]
  have hmax : maxElement (lines.map (fun line => innerProductD fl.fused f line)) = 0 := by
    apply maxElement_nan
    intro x hx
    obtain ⟨line, hline, rfl⟩ := List.mem_map.mp hx
    exact innerProductD_nan _ _ _ (by rw [hfl, hl line hline]) (Or.inl hnan)
  obtain ⟨line, hline⟩ : ∃ line, lines[0]? = some line := ⟨_, List.getElem?_eq_getElem (List.length_pos_iff.mpr hne)⟩
  have hll : line.length = m := hl line (List.mem_of_getElem? hline)
  have hd : perpendicularDistanceSqD fl.fused fl.sum line f = some nan := by
    unfold perpendicularDistanceSqD
    rw [if_pos (by omega), innerProductD_nan fl.fused line f (by omega) (Or.inr hnan)]
    simp only
    congr 1
    apply hsum
    apply List.mem_of_getElem? (i := 0)
    rw [List.getElem?_eq_getElem (by simp; omega), List.getElem_zipWith]
    rw [show neg (div nan (innerProductD fl.fused line line)) = nan from rfl, mulAdd_nan _ _ _ _ (Or.inl rfl)]
    rfl
  unfold associateOneD
  simp only [hf, hmax, hline, hd, Option.bind_eq_bind, Option.bind_some, Option.pure_def]

/-- The candidates of the split front are the ones at its start if the distances are not numbers. -/
theorem nicheLoopD_nan (info : List (CandInfo Dbl)) (els0 : List (Nat × Nat)) (numRefs first last : Nat) (pick : Nat → Nat → Nat) (s0 : NicheState)
    (hpick : ∀ i n, 0 < n → pick i n < n) (hlt : ∀ e ∈ els0, e.1 < info.length) (hlast : last ≤ els0.length) (inv : NicheInvD info els0 numRefs first last 0 s0) (h0 : s0.els = els0)
    (hrefs : ∀ r ∈ s0.refs, r = 0) (hnan : ∀ e ∈ (els0.take last).drop first, ∃ c, info[e.1]? = some c ∧ c.refIdx = 0 ∧ c.refDist = nan) :
    ∀ k, first + k ≤ last → ∃ s, nicheLoopD info first last pick k s0 = some s ∧ NicheInvD info els0 numRefs first last k s ∧ (∀ r ∈ s.refs, r = 0) ∧
      (s.els.take (first + k)).Perm (els0.take (first + k)) ∧ ∀ q, first + k ≤ q → s.els[q]? = els0[q]? := by
  intro k
  induction k with
  | zero => intro _; exact ⟨s0, rfl, inv, hrefs, by rw [h0], fun _ _ => by rw [h0]⟩
  | succ k ih =>
    intro hk
    obtain ⟨s, h1, h2, h3, h4, h5⟩ := ih (by omega)
    obtain ⟨s', ref, c, g1, g2, g3, g4, g5, g6, g7⟩ := nicheRoundD_spec info els0 numRefs first last k (pick k) s (hpick k) hlt hlast (by omega) h2
    have hlen : s.els.length = els0.length := h2.perm.length_eq
    have hlen' : s'.els.length = els0.length := g2.perm.length_eq
    have hc : c = 0 := by
      have hpart := slice_perm s.els els0 first last h2.perm (by omega) h2.outside
      have hkeys : ((s.els.take last).drop first).mapM (fun sol => (do
          let i ← info[sol.1]?
          return if i.refIdx = ref then i.refDist else pinf : Option Dbl)) = some (((s.els.take last).drop first).map (fun _ => nan)) := by
        apply ListAux.mapM_eq_some_of_forall _ _ _ (by simp)
        intro i h h'
        obtain ⟨c, hc1, hc2, hc3⟩ := hnan _ (hpart.mem_iff.mp (List.getElem_mem h))
        rw [hc1, List.getElem_map]
        simp only [Option.bind_eq_bind, Option.bind_some, hc2, h3 ref g3, if_true, hc3]
        rfl
      unfold findClosestAssociatedD at g4
      rw [hkeys] at g4
      simp only [Option.bind_eq_bind, Option.bind_some, Option.pure_def, Option.some.injEq] at g4
      rw [← g4]
      exact minElement_nan _ (by intro x hx; obtain ⟨_, -, rfl⟩ := List.mem_map.mp hx; rfl)
    subst hc
    refine ⟨s', ?_, g2, fun r hr => h3 r (g7 r hr), ?_, ?_⟩
    · unfold nicheLoopD at h1 ⊢
      rw [List.range_succ, List.foldlM_append, h1]
      simp [g1]
    · have hin : (s.els.take (first + (k + 1))).Perm (els0.take (first + (k + 1))) := by
        have e1 : ∀ l : List (Nat × Nat), l.length = els0.length → l.take (first + (k + 1)) = l.take (first + k) ++ [l[first + k]?.getD (0, 0)] := by
          intro l hl
          rw [← Nat.add_assoc, List.take_add_one, List.getElem?_eq_getElem (by omega)]
          rfl
        rw [e1 _ hlen, e1 _ rfl, h5 _ (le_refl _)]
        exact h4.append_right _
      refine List.Perm.trans ?_ hin
      obtain ⟨l', hl1, hl2, hl3⟩ := swap?_eq (l := s.els.take (first + (k + 1))) (i := first) (j := first + k) (by simp; omega) (by simp; omega)
      have : s'.els.take (first + (k + 1)) = l' := by
        apply List.ext_getElem?
        intro q
        rw [List.getElem?_take, hl3, g6]
        simp only [List.getElem?_take, Nat.add_zero]
        by_cases hq : q < first + (k + 1)
        · simp only [if_pos hq, if_pos (show first < first + (k + 1) by omega), if_pos (show first + k < first + (k + 1) by omega)]
        · rw [if_neg hq, if_neg (by omega), if_neg (by omega), if_neg hq]
      rw [this]
      exact hl2
    · intro q hq
      rw [g6, if_neg (by omega), if_neg (by omega)]
      exact h5 q (by omega)

end Gapp.Model
