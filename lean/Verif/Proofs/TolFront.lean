import Verif.Proofs.ParetoFront
import Verif.Proofs.NdSort
import Verif.Proofs.Tolerant
import Mathlib.Data.Finset.Max
/-! Proofs about the Pareto front and the non-dominated sorting that do not need transitive comparisons. -/

namespace Gapp.Model
open Gapp.Spec

section Best
variable {n : Nat} {less : Nat → Nat → Bool}

/-- Invariant of the BEST algorithm for any comparison: `opt` are the selected indices, `A` the remaining ones. -/
structure BestTol (n : Nat) (less : Nat → Nat → Bool) (opt : List Nat) (A : Nat → Prop) : Prop where
  sub : ∀ x, A x → x < n
  optSub : ∀ x ∈ opt, x < n
  cover : ∀ x, x < n → A x ∨ x ∈ opt ∨ ∃ y, y < n ∧ less x y = true
  leads : ∀ x, x < n → ∃ y, (A y ∨ y ∈ opt) ∧ Relation.ReflTransGen (fun a b => a < n ∧ b < n ∧ less a b = true) x y
  nodup : opt.Nodup
  disj : ∀ x ∈ opt, ¬ A x

theorem BestTol.remove {opt : List Nat} {A : Nat → Prop} (hi : BestTol n less opt A)
    {x y : Nat} (hx : A x) (hy : A y) (hne : y ≠ x) (hxy : less x y = true) :
    BestTol n less opt (fun z => A z ∧ z ≠ x) := by
  refine ⟨fun z hz => hi.sub z hz.1, hi.optSub, ?_, ?_, hi.nodup, fun z hz hA => hi.disj z hz hA.1⟩
  · intro z hz
    rcases hi.cover z hz with hA | ho | hw
    · by_cases e : z = x
      · subst e; exact Or.inr (Or.inr ⟨y, hi.sub y hy, hxy⟩)
      · exact Or.inl ⟨hA, e⟩
    · exact Or.inr (Or.inl ho)
    · exact Or.inr (Or.inr hw)
  · intro z hz
    obtain ⟨w, hw, hp⟩ := hi.leads z hz
    rcases hw with hw | hw
    · by_cases e : w = x
      · subst e
        exact ⟨y, Or.inl ⟨hy, hne⟩, hp.tail ⟨hi.sub _ hx, hi.sub _ hy, hxy⟩⟩
      · exact ⟨w, Or.inl ⟨hw, e⟩, hp⟩
    · exact ⟨w, Or.inr hw, hp⟩

theorem BestTol.select {opt : List Nat} {A : Nat → Prop} (hi : BestTol n less opt A)
    {b : Nat} (hb : A b) : BestTol n less (opt ++ [b]) (fun z => A z ∧ z ≠ b) := by
  refine ⟨fun z hz => hi.sub z hz.1, ?_, ?_, ?_, ?_, ?_⟩
  · intro x hx
    rcases List.mem_append.1 hx with hx | hx
    · exact hi.optSub x hx
    · rw [List.mem_singleton.1 hx]; exact hi.sub b hb
  · intro x hx
    rcases hi.cover x hx with hA | ho | hy
    · by_cases e : x = b
      · subst e; exact Or.inr (Or.inl (by simp))
      · exact Or.inl ⟨hA, e⟩
    · exact Or.inr (Or.inl (by simp [ho]))
    · exact Or.inr (Or.inr hy)
  · intro x hx
    obtain ⟨w, hw, hp⟩ := hi.leads x hx
    rcases hw with hw | hw
    · by_cases e : w = b
      · subst e; exact ⟨w, Or.inr (by simp), hp⟩
      · exact ⟨w, Or.inl ⟨hw, e⟩, hp⟩
    · exact ⟨w, Or.inr (by simp [hw]), hp⟩
  · rw [List.nodup_append]
    refine ⟨hi.nodup, by simp, ?_⟩
    intro a ha c hc
    rw [List.mem_singleton.1 hc]
    rintro rfl
    exact hi.disj _ ha hb
  · intro x hx hA
    rcases List.mem_append.1 hx with hx | hx
    · exact hi.disj x hx hA.1
    · exact hA.2 (List.mem_singleton.1 hx)

theorem bestScan_tol {cmp : Nat → Nat → Int}
    (hc1 : ∀ i j, i < n → j < n → cmp i j > 0 → less j i = true)
    (hc2 : ∀ i j, i < n → j < n → cmp i j < 0 → less i j = true) (opt : List Nat) :
    ∀ (k : Nat) (arr : List Nat) (first last best it b : Nat), last - it = k →
      arr.Perm (List.range n) → first ≤ best → best < it → it ≤ last → last ≤ n →
      arr[best]? = some b →
      BestTol n less opt (Alive arr first last) →
      ∃ arr' first' last' best' b', bestScan cmp k arr first last best it = some (arr', first', last', best') ∧
        arr'.Perm (List.range n) ∧ first' ≤ best' ∧ best' < last' ∧ last' ≤ n ∧
        last' - first' ≤ last - first ∧ arr'[best']? = some b' ∧
        BestTol n less opt (Alive arr' first' last') := by
  intro k
  induction k with
  | zero =>
    intro arr first last best it b hk hperm h1 h2 h3 h4 hb hinv
    have : it = last := by omega
    subst this
    rw [bestScan]
    exact ⟨arr, first, it, best, b, rfl, hperm, h1, h2, h4, Nat.le_refl _, hb, hinv⟩
  | succ k ih =>
    intro arr first last best it b hk hperm h1 h2 h3 h4 hb hinv
    by_cases hlt : it < last
    · have hlen : arr.length = n := by simpa using hperm.length_eq
      have hnd : arr.Nodup := hperm.nodup_iff.2 List.nodup_range
      have hx : arr[it]? = some (arr[it]'(by omega)) := List.getElem?_eq_getElem (by omega)
      generalize (arr[it]'(by omega)) = x at hx
      have hmem : ∀ {q z : Nat}, arr[q]? = some z → z < n := by
        intro q z hq
        have := List.mem_of_getElem? hq
        simpa using hperm.mem_iff.1 this
      have hbn := hmem hb
      have hxn := hmem hx
      have hAb : Alive arr first last b := ⟨best, h1, by omega, hb⟩
      have hAx : Alive arr first last x := ⟨it, by omega, by omega, hx⟩
      have hbx : b ≠ x := by rintro rfl; have := nodup_getElem? hnd hb hx; omega
      rw [bestScan, hb, hx]
      simp only [Option.bind_eq_bind, Option.bind_some]
      by_cases hgt : cmp b x > 0
      · rw [if_pos hgt]
        have hdom := hc1 b x hbn hxn hgt
        obtain ⟨arr', e1, e2, e3⟩ := swap?_eq (l := arr) (i := it) (j := last - 1) (by omega) (by omega)
        rw [e1]
        simp only [Option.bind_some]
        have hset : Alive arr' first (last - 1) = fun z => Alive arr first last z ∧ z ≠ x := by
          funext z; apply propext
          constructor
          · rintro ⟨p, hp1, hp2, hp3⟩
            rw [e3, if_neg (by omega)] at hp3
            split at hp3
            · refine ⟨⟨last - 1, by omega, by omega, hp3⟩, ?_⟩
              rintro rfl
              have := nodup_getElem? hnd hp3 hx
              omega
            · refine ⟨⟨p, hp1, by omega, hp3⟩, ?_⟩
              rintro rfl
              have := nodup_getElem? hnd hp3 hx
              omega
          · rintro ⟨⟨p, hp1, hp2, hp3⟩, hne⟩
            have hpit : p ≠ it := by rintro rfl; rw [hx] at hp3; exact hne (Option.some.inj hp3).symm
            by_cases hpl : p = last - 1
            · subst hpl
              refine ⟨it, by omega, by omega, ?_⟩
              rw [e3, if_neg (by omega), if_pos rfl]; exact hp3
            · refine ⟨p, hp1, by omega, ?_⟩
              rw [e3, if_neg hpl, if_neg hpit]; exact hp3
        have hsame : ∀ p, p < it → arr'[p]? = arr[p]? := by
          intro p hp; rw [e3, if_neg (by omega), if_neg (by omega)]
        obtain ⟨a', f', l', b1, b', r1, r2, r3, r4, r5, r6, r7⟩ :=
          ih arr' first (last - 1) best it b (by omega) (e2.trans hperm) h1 h2 (by omega) (by omega)
            (by rw [hsame _ h2]; exact hb) (by rw [hset]; exact hinv.remove hAx hAb hbx hdom)
        exact ⟨a', f', l', b1, b', r1, r2, r3, r4, r5, by omega, r7⟩
      · rw [if_neg hgt]
        by_cases hltc : cmp b x < 0
        · rw [if_pos hltc]
          have hdom := hc2 b x hbn hxn hltc
          obtain ⟨arr', e1, e2, e3⟩ := swap?_eq (l := arr) (i := best) (j := first) (by omega) (by omega)
          rw [e1]
          simp only [Option.bind_some]
          have hset : Alive arr' (first + 1) last = fun z => Alive arr first last z ∧ z ≠ b := by
            funext z; apply propext
            constructor
            · rintro ⟨p, hp1, hp2, hp3⟩
              rw [e3, if_neg (by omega)] at hp3
              split at hp3
              · refine ⟨⟨first, by omega, by omega, hp3⟩, ?_⟩
                rintro rfl
                have := nodup_getElem? hnd hp3 hb
                omega
              · refine ⟨⟨p, by omega, by omega, hp3⟩, ?_⟩
                rintro rfl
                have := nodup_getElem? hnd hp3 hb
                omega
            · rintro ⟨⟨p, hp1, hp2, hp3⟩, hne⟩
              have hpb : p ≠ best := by rintro rfl; rw [hb] at hp3; exact hne (Option.some.inj hp3).symm
              by_cases hpf : p = first
              · subst hpf
                refine ⟨best, by omega, by omega, ?_⟩
                rw [e3, if_neg (by omega), if_pos rfl]; exact hp3
              · refine ⟨p, by omega, hp2, ?_⟩
                rw [e3, if_neg hpf, if_neg hpb]; exact hp3
          have hit : arr'[it]? = some x := by
            rw [e3, if_neg (by omega), if_neg (by omega)]; exact hx
          obtain ⟨a', f', l', b1, b', r1, r2, r3, r4, r5, r6, r7⟩ :=
            ih arr' (first + 1) last it (it + 1) x (by omega) (e2.trans hperm) (by omega) (by omega)
              (by omega) (by omega) hit (by rw [hset]; exact hinv.remove hAb hAx (Ne.symm hbx) hdom)
          exact ⟨a', f', l', b1, b', r1, r2, r3, r4, r5, by omega, r7⟩
        · rw [if_neg hltc]
          exact ih arr first last best (it + 1) b (by omega) hperm h1 (by omega) (by omega) h4 hb hinv
    · omega

theorem bestPrune_tol (opt : List Nat) (last best b : Nat) (hbl : best < last)
    (hln : last ≤ n) :
    ∀ (k : Nat) (arr : List Nat) (first it : Nat), best - it = k →
      arr.Perm (List.range n) → first ≤ it → it ≤ best → arr[best]? = some b →
      BestTol n less opt (Alive arr first last) →
      ∃ arr' first', bestPrune less k arr first best it = some (arr', first') ∧
        arr'.Perm (List.range n) ∧ first ≤ first' ∧ first' ≤ best ∧ arr'[best]? = some b ∧
        BestTol n less opt (Alive arr' first' last) := by
  intro k
  induction k with
  | zero =>
    intro arr first it hk hperm h1 h2 hb hinv
    have : it = best := by omega
    subst this
    rw [bestPrune]
    exact ⟨arr, first, rfl, hperm, Nat.le_refl _, h1, hb, hinv⟩
  | succ k ih =>
    intro arr first it hk hperm h1 h2 hb hinv
    by_cases hlt : it < best
    · have hlen : arr.length = n := by simpa using hperm.length_eq
      have hnd : arr.Nodup := hperm.nodup_iff.2 List.nodup_range
      have hx : arr[it]? = some (arr[it]'(by omega)) := List.getElem?_eq_getElem (by omega)
      generalize (arr[it]'(by omega)) = x at hx
      have hAb : Alive arr first last b := ⟨best, by omega, by omega, hb⟩
      have hAx : Alive arr first last x := ⟨it, by omega, by omega, hx⟩
      have hbx : b ≠ x := by rintro rfl; have := nodup_getElem? hnd hb hx; omega
      rw [bestPrune, hb, hx]
      simp only [Option.bind_eq_bind, Option.bind_some]
      by_cases hl : less x b = true
      · rw [if_pos hl]
        obtain ⟨arr', e1, e2, e3⟩ := swap?_eq (l := arr) (i := it) (j := first) (by omega) (by omega)
        rw [e1]
        simp only [Option.bind_some]
        have hset : Alive arr' (first + 1) last = fun z => Alive arr first last z ∧ z ≠ x := by
          funext z; apply propext
          constructor
          · rintro ⟨p, hp1, hp2, hp3⟩
            rw [e3, if_neg (by omega)] at hp3
            split at hp3
            · refine ⟨⟨first, by omega, by omega, hp3⟩, ?_⟩
              rintro rfl
              have := nodup_getElem? hnd hp3 hx
              omega
            · refine ⟨⟨p, by omega, by omega, hp3⟩, ?_⟩
              rintro rfl
              have := nodup_getElem? hnd hp3 hx
              omega
          · rintro ⟨⟨p, hp1, hp2, hp3⟩, hne⟩
            have hpb : p ≠ it := by rintro rfl; rw [hx] at hp3; exact hne (Option.some.inj hp3).symm
            by_cases hpf : p = first
            · subst hpf
              refine ⟨it, by omega, by omega, ?_⟩
              rw [e3, if_neg (by omega), if_pos rfl]; exact hp3
            · refine ⟨p, by omega, hp2, ?_⟩
              rw [e3, if_neg hpf, if_neg hpb]; exact hp3
        obtain ⟨a', f', r1, r2, r3, r4, r5⟩ :=
          ih arr' (first + 1) (it + 1) (by omega) (e2.trans hperm) (by omega) (by omega)
            (by rw [e3, if_neg (by omega), if_neg (by omega)]; exact hb)
            (by rw [hset]; exact hinv.remove hAx hAb hbx hl)
        exact ⟨a', f', r1, r2, by omega, r4, r5⟩
      · rw [if_neg hl]
        exact ih arr first (it + 1) (by omega) hperm (by omega) (by omega) hb hinv
    · omega

theorem bestOuter_tol {cmp : Nat → Nat → Int}
    (hc1 : ∀ i j, i < n → j < n → cmp i j > 0 → less j i = true)
    (hc2 : ∀ i j, i < n → j < n → cmp i j < 0 → less i j = true) :
    ∀ (fuel : Nat) (arr : List Nat) (first last : Nat) (opt : List Nat),
      last - first ≤ fuel → first ≤ last → last ≤ n → arr.Perm (List.range n) →
      BestTol n less opt (Alive arr first last) →
      ∃ res, bestOuter cmp less fuel arr first last opt = some res ∧ BestTol n less res (fun _ => False) := by
  intro fuel
  have hend : ∀ (arr : List Nat) (first : Nat), Alive arr first first = fun _ => False := by
    intro arr first; funext z; apply propext
    exact ⟨fun ⟨p, h1, h2, _⟩ => by omega, False.elim⟩
  induction fuel with
  | zero =>
    intro arr first last opt hf hle hn hperm hinv
    have : first = last := by omega
    subst this
    exact ⟨opt, by simp [bestOuter], by rw [hend] at hinv; exact hinv⟩
  | succ fuel ih =>
    intro arr first last opt hf hle hn hperm hinv
    by_cases heq : first = last
    · subst heq
      exact ⟨opt, by simp [bestOuter], by rw [hend] at hinv; exact hinv⟩
    · have hlen : arr.length = n := by simpa using hperm.length_eq
      have hb : arr[first]? = some (arr[first]'(by omega)) := List.getElem?_eq_getElem (by omega)
      generalize (arr[first]'(by omega)) = b at hb
      have hbn : b < n := by
        have := List.mem_of_getElem? hb
        simpa using hperm.mem_iff.1 this
      obtain ⟨a1, f1, l1, best, b', r1, r2, r3, r4, r5, r6, r7, r8⟩ :=
        bestScan_tol hc1 hc2 opt _ arr first last first (first + 1) b rfl hperm
          (Nat.le_refl _) (by omega) (by omega) hn hb hinv
      obtain ⟨a2, f2, s1, s2, s3, s4, s5, s6⟩ :=
        bestPrune_tol opt l1 best b' r4 r5 _ a1 f1 f1 rfl r2 (Nat.le_refl _) r3 r7 r8
      have hlen2 : a2.length = n := by simpa using s2.length_eq
      have hnd2 : a2.Nodup := s2.nodup_iff.2 List.nodup_range
      obtain ⟨a3, e1, e2, e3⟩ := swap?_eq (l := a2) (i := best) (j := l1 - 1) (by omega) (by omega)
      have hset : Alive a3 f2 (l1 - 1) = fun z => Alive a2 f2 l1 z ∧ z ≠ b' := by
        funext z; apply propext
        constructor
        · rintro ⟨p, hp1, hp2, hp3⟩
          rw [e3, if_neg (by omega)] at hp3
          split at hp3
          · refine ⟨⟨l1 - 1, by omega, by omega, hp3⟩, ?_⟩
            rintro rfl
            have := nodup_getElem? hnd2 hp3 s5
            omega
          · refine ⟨⟨p, hp1, by omega, hp3⟩, ?_⟩
            rintro rfl
            have := nodup_getElem? hnd2 hp3 s5
            omega
        · rintro ⟨⟨p, hp1, hp2, hp3⟩, hne⟩
          have hpit : p ≠ best := by rintro rfl; rw [s5] at hp3; exact hne (Option.some.inj hp3).symm
          by_cases hpl : p = l1 - 1
          · subst hpl
            refine ⟨best, by omega, by omega, ?_⟩
            rw [e3, if_neg (by omega), if_pos rfl]; exact hp3
          · refine ⟨p, hp1, by omega, ?_⟩
            rw [e3, if_neg hpl, if_neg hpit]; exact hp3
      have hsel := s6.select (b := b') ⟨best, by omega, by omega, s5⟩
      obtain ⟨res, t1, t2⟩ := ih a3 f2 (l1 - 1) (opt ++ [b']) (by omega) (by omega) (by omega)
        (e2.trans s2) (by rw [hset]; exact hsel)
      refine ⟨res, ?_, t2⟩
      rw [bestOuter, if_neg heq, r1]
      simp only [Option.bind_eq_bind, Option.bind_some, r7, s1, e1, t1]

/-- The indices selected by the BEST algorithm, for any comparison. -/
theorem bestOuter_cover {cmp : Nat → Nat → Int}
    (hc1 : ∀ i j, i < n → j < n → cmp i j > 0 → less j i = true)
    (hc2 : ∀ i j, i < n → j < n → cmp i j < 0 → less i j = true) :
    ∃ res, bestOuter cmp less n (List.range n) 0 n [] = some res ∧ res.Nodup ∧ (∀ i ∈ res, i < n) ∧
      (∀ i, i < n → i ∈ res ∨ ∃ j, j < n ∧ less i j = true) ∧
      ∀ i, i < n → ∃ j ∈ res, Relation.ReflTransGen (fun a b => a < n ∧ b < n ∧ less a b = true) i j := by
  obtain ⟨res, h1, h2⟩ := bestOuter_tol hc1 hc2 n (List.range n) 0 n [] (by omega) (by omega) (by omega)
    (List.Perm.refl _) (by
      have hmem : ∀ x, x < n → Alive (List.range n) 0 n x := by
        intro x hx; exact ⟨x, by omega, hx, by simp [hx]⟩
      refine ⟨?_, by simp, fun x hx => Or.inl (hmem x hx), fun x hx => ⟨x, Or.inl (hmem x hx), .refl⟩, by simp, by simp⟩
      rintro x ⟨p, _, hp, he⟩
      have := List.mem_of_getElem? he
      simpa using this)
  refine ⟨res, h1, h2.nodup, h2.optSub, ?_, ?_⟩
  · intro i hi
    rcases h2.cover i hi with h | h | h
    · exact h.elim
    · exact Or.inl h
    · exact Or.inr h
  · intro i hi
    obtain ⟨y, hy, hp⟩ := h2.leads i hi
    rcases hy with hy | hy
    · exact hy.elim
    · exact ⟨y, hy, hp⟩

end Best

/-! ### ENS -/

section Ens
variable {n : Nat} {less : Nat → Nat → Bool}

/-- `ensPlace` passes a front only if one of its elements is better. -/
theorem ensPlace_passed (idx : Nat) : ∀ (fuel rank : Nat) (suffix : List (Nat × Nat)) (res : List (Nat × Nat)),
    suffix.Pairwise (fun a b => a.2 ≤ b.2) → (∀ e ∈ suffix, rank ≤ e.2) → (∀ r, (idx, r) ∉ suffix) →
    ensPlace less idx fuel rank suffix = some res → ∀ r, (idx, r) ∈ res → rank ≤ r ∧
      ∀ q, rank ≤ q → q < r → ∃ e ∈ suffix, e.2 = q ∧ less idx e.1 = true := by
  intro fuel
  induction fuel with
  | zero => intro rank suffix res _ _ _ h; simp [ensPlace] at h
  | succ fuel ih =>
    intro rank suffix res hs hr hnew h
    rw [ensPlace] at h
    split at h
    · obtain rfl := Option.some.inj h
      intro r hm
      simp only [List.mem_singleton, Prod.mk.injEq, true_and] at hm
      exact ⟨by omega, fun q h1 h2 => by omega⟩
    · dsimp only at h
      have hsplit := List.takeWhile_append_dropWhile (p := fun e : Nat × Nat => e.2 == rank) (l := suffix)
      have htw : ∀ e ∈ suffix.takeWhile (fun e => e.2 == rank), e.2 = rank := by
        intro e he
        have := List.mem_takeWhile_imp he
        simpa using this
      have hdw : ∀ e ∈ suffix.dropWhile (fun e => e.2 == rank), rank < e.2 := by
        cases hd : suffix.dropWhile (fun e => e.2 == rank) with
        | nil => simp
        | cons x l =>
          have hx : x.2 ≠ rank := by
            have := List.head_dropWhile_not (p := fun e : Nat × Nat => e.2 == rank) (l := suffix) (by rw [hd]; simp)
            simp only [hd, List.head_cons] at this
            simpa using this
          rw [← hsplit, hd] at hs hr
          have hxr : rank < x.2 := by
            have := hr x (by simp)
            omega
          intro e he
          rcases List.mem_cons.1 he with rfl | he
          · exact hxr
          · have := (List.pairwise_append.1 hs).2.1
            have := (List.pairwise_cons.1 this).1 e he
            omega
      split at h
      · rename_i hany
        obtain ⟨e, he, hl⟩ := List.any_eq_true.1 hany
        obtain ⟨res', h1, rfl⟩ := Option.map_eq_some_iff.1 h
        intro r hm
        have hm' : (idx, r) ∈ res' := by
          rcases List.mem_append.1 hm with hm | hm
          · exact absurd ((List.takeWhile_sublist _).subset hm) (hnew r)
          · exact hm
        obtain ⟨g1, g2⟩ := ih (rank + 1) (suffix.dropWhile (fun e => e.2 == rank)) res'
          (by rw [← hsplit] at hs; exact (List.pairwise_append.1 hs).2.1) hdw
          (fun r hm => hnew r ((List.dropWhile_sublist _).subset hm)) h1 r hm'
        refine ⟨by omega, fun q h2 h3 => ?_⟩
        by_cases hq : q = rank
        · exact ⟨e, (List.takeWhile_sublist _).subset he, by rw [htw e he, hq], hl⟩
        · obtain ⟨e', he', h4⟩ := g2 q (by omega) h3
          exact ⟨e', (List.dropWhile_sublist _).subset he', h4⟩
      · obtain rfl := Option.some.inj h
        intro r hm
        rcases List.mem_cons.1 hm with hm | hm
        · simp only [Prod.mk.injEq, true_and] at hm
          exact ⟨by omega, fun q h1 h2 => by omega⟩
        · exact absurd hm (hnew r)

/-- The invariant of the ranked indices, for any comparison; `bef` is the order in which they are processed. -/
structure RankTol (n : Nat) (less : Nat → Nat → Bool) (bef : Nat → Nat → Prop) (clear : Nat → Nat → Prop) (pf : List (Nat × Nat)) : Prop where
  lt : ∀ i r, (i, r) ∈ pf → i < n
  nodup : (pf.map (·.1)).Nodup
  sorted : pf.Pairwise (fun a b => a.2 ≤ b.2)
  same : ∀ i j r, (i, r) ∈ pf → (j, r) ∈ pf → less i j = true → bef i j
  lower : ∀ i r, (i, r) ∈ pf → ∀ q, q < r → ∃ j, (j, q) ∈ pf ∧ less i j = true
  clear : ∀ i r j s, (i, r) ∈ pf → (j, s) ∈ pf → clear i j → s < r

theorem ensPlace_tol {bef clear : Nat → Nat → Prop} (hirr : ∀ i, i < n → less i i = false)
    (hcl : ∀ i j, i < n → j < n → clear i j → less i j = true ∧ ¬ bef i j ∧ ∀ k, k < n → less j k = true → less i k = true)
    {pf : List (Nat × Nat)} (hi : RankTol n less bef clear pf) (idx : Nat) (hidx : idx < n)
    (hnew : ∀ r, (idx, r) ∉ pf) (hbef : ∀ i r, (i, r) ∈ pf → bef i idx) :
    ∃ pf', ensPlace less idx (pf.length + 1) 0 pf = some pf' ∧ RankTol n less bef clear pf' ∧
      (pf'.map (·.1)).Perm (idx :: pf.map (·.1)) := by
  obtain ⟨A, B, r, h1, h2, -, h4, h5, h6, -⟩ := ensPlace_spec (less := less) idx (pf.length + 1) 0 pf (by omega)
    hi.sorted (by simp)
  obtain ⟨-, h7⟩ := ensPlace_passed (less := less) idx (pf.length + 1) 0 pf _ hi.sorted (by simp) hnew h2 r (by simp)
  have hperm : ((A ++ (idx, r) :: B).map (·.1)).Perm (idx :: pf.map (·.1)) := by
    rw [h1]
    exact (List.perm_middle (a := (idx, r)) (l₁ := A) (l₂ := B)).map _
  have hmem : ∀ i s, (i, s) ∈ A ++ (idx, r) :: B ↔ (i, s) ∈ pf ∨ (i = idx ∧ s = r) := by
    intro i s
    rw [h1]
    simp only [List.mem_append, List.mem_cons, Prod.mk.injEq]
    tauto
  have hsame : ∀ j, (j, r) ∈ pf → less idx j = false := by
    intro j hj
    rw [h1] at hj
    rcases List.mem_append.1 hj with hj | hj
    · have := h4 _ hj; simp at this
    · exact h6 _ hj rfl
  refine ⟨_, h2, ⟨?_, ?_, ?_, ?_, ?_, ?_⟩, hperm⟩
  · intro i s hm
    rcases (hmem i s).1 hm with hm | ⟨rfl, _⟩
    · exact hi.lt _ _ hm
    · exact hidx
  · rw [hperm.nodup_iff, List.nodup_cons]
    refine ⟨?_, hi.nodup⟩
    intro hm
    obtain ⟨⟨a, s⟩, hm', rfl⟩ := List.mem_map.1 hm
    exact hnew s hm'
  · have hs := hi.sorted
    rw [h1] at hs
    obtain ⟨s1, s2, s3⟩ := List.pairwise_append.1 hs
    refine List.pairwise_append.2 ⟨s1, List.pairwise_cons.2 ⟨h5, s2⟩, ?_⟩
    intro a ha b hb
    rcases List.mem_cons.1 hb with rfl | hb
    · exact Nat.le_of_lt (h4 a ha)
    · exact s3 a ha b hb
  · intro i j s hm1 hm2 hl
    rcases (hmem i s).1 hm1 with hm1' | ⟨e1, e1'⟩ <;> rcases (hmem j s).1 hm2 with hm2' | ⟨e2, e2'⟩
    · exact hi.same i j s hm1' hm2' hl
    · rw [e2]; exact hbef i s hm1'
    · rw [e1'] at hm2'; rw [e1, hsame j hm2'] at hl; cases hl
    · rw [e1, e2, hirr _ hidx] at hl; cases hl
  · intro i s hm q hq
    rcases (hmem i s).1 hm with hm | ⟨rfl, rfl⟩
    · obtain ⟨j, hj, hl⟩ := hi.lower i s hm q hq
      exact ⟨j, (hmem _ _).2 (Or.inl hj), hl⟩
    · obtain ⟨⟨j, q'⟩, he, rfl, hl⟩ := h7 q (Nat.zero_le _) hq
      exact ⟨j, (hmem _ _).2 (Or.inl he), hl⟩
  · intro i s j s' hm1 hm2 hc
    rcases (hmem i s).1 hm1 with hm1' | ⟨e1, e1'⟩ <;> rcases (hmem j s').1 hm2 with hm2' | ⟨e2, e2'⟩
    · exact hi.clear i s j s' hm1' hm2' hc
    · rw [e2] at hc
      exact absurd (hbef i s hm1') (hcl i idx (hi.lt _ _ hm1') hidx hc).2.1
    · rw [e1] at hc
      rw [e1']
      obtain ⟨c1, -, c3⟩ := hcl idx j hidx (hi.lt _ _ hm2') hc
      by_contra hge
      by_cases hrs : s' = r
      · rw [hrs] at hm2'; rw [hsame j hm2'] at c1; cases c1
      · obtain ⟨k, hk, hl⟩ := hi.lower j s' hm2' r (by omega)
        have := c3 k (hi.lt _ _ hk) hl
        rw [hsame k hk] at this; cases this
    · rw [e1, e2] at hc
      have := (hcl idx idx hidx hidx hc).1
      rw [hirr _ hidx] at this; cases this

theorem ensLoop_tol {bef clear : Nat → Nat → Prop} (hirr : ∀ i, i < n → less i i = false)
    (hcl : ∀ i j, i < n → j < n → clear i j → less i j = true ∧ ¬ bef i j ∧ ∀ k, k < n → less j k = true → less i k = true) :
    ∀ (l : List Nat) (pf : List (Nat × Nat)), RankTol n less bef clear pf →
    l.Pairwise bef → l.Nodup → (∀ x ∈ l, x < n) → (∀ x ∈ l, ∀ r, (x, r) ∉ pf) →
    (∀ x ∈ l, ∀ i r, (i, r) ∈ pf → bef i x) →
    ∃ res, ensLoop less l pf = some res ∧ RankTol n less bef clear res ∧ (res.map (·.1)).Perm (l ++ pf.map (·.1)) := by
  intro l
  induction l with
  | nil => intro pf hi _ _ _ _ _; exact ⟨pf, rfl, hi, by simp⟩
  | cons x l ih =>
    intro pf hi hs hn hlt hnew htopo
    obtain ⟨pf', h1, h2, h3⟩ := ensPlace_tol hirr hcl hi x (hlt x (by simp)) (hnew x (by simp)) (htopo x (by simp))
    have hs' := List.pairwise_cons.1 hs
    have hn' := List.nodup_cons.1 hn
    have hmem : ∀ i r, (i, r) ∈ pf' → i = x ∨ ∃ s, (i, s) ∈ pf := by
      intro i r hm
      have : i ∈ x :: pf.map (·.1) := h3.mem_iff.1 (List.mem_map.2 ⟨_, hm, rfl⟩)
      rcases List.mem_cons.1 this with e | e
      · exact Or.inl e
      · obtain ⟨⟨a, s⟩, hm', rfl⟩ := List.mem_map.1 e
        exact Or.inr ⟨s, hm'⟩
    obtain ⟨res, r1, r2, r3⟩ := ih pf' h2 hs'.2 hn'.2 (fun y hy => hlt y (by simp [hy]))
      (by
        intro y hy r hm
        rcases hmem y r hm with e | ⟨s, e⟩
        · subst e; exact hn'.1 hy
        · exact hnew y (by simp [hy]) s e)
      (by
        intro y hy i r hm
        rcases hmem i r hm with e | ⟨s, e⟩
        · subst e; exact hs'.1 y hy
        · exact htopo y (by simp [hy]) i s e)
    refine ⟨res, by rw [ensLoop, h1]; exact r1, r2, r3.trans ?_⟩
    exact (h3.append_left l).trans (List.perm_middle)

end Ens

/-! ### Rows of a matrix -/

section Rows
variable {K : Type} [CommRing K] [LinearOrder K] [IsStrictOrderedRing K]

theorem findParetoFrontBest_tol {t : Tol K} (ht : t.Valid) (fmat : FMat K) : ∃ res, findParetoFrontBest t fmat = some res ∧ FrontTol t fmat res := by
  obtain ⟨res, h1, h2, h3, h4, h5⟩ := bestOuter_cover (n := fmat.length) (less := rowLess t fmat) (cmp := rowCmp t fmat)
    (fun i j _ _ h => dominates_imp_less ht ((paretoCompare_spec ht _ _).2.1.1 h))
    (fun i j _ _ h => dominates_imp_less ht ((paretoCompare_spec ht _ _).1.1 h))
  have hl : ∀ i j, rowLess t fmat i j = true ↔ RowBeats t fmat j i := fun i j => less_iff_beats ht _ _
  simp only [hl] at h4 h5
  exact ⟨res, h1, h2, h3, h4, h5⟩

theorem frontTol_one {t : Tol K} (ht : t.Valid) (hr : t.rel ≤ 1) {fmat : FMat K} (hm : IsMatrix 1 fmat) (hne : fmat ≠ []) {res : List Nat}
    (h : IsParetoFront (fun j i => Dominates t (fmat.getD j []) (fmat.getD i [])) fmat.length res) :
    FrontTol t fmat res ∧ ∃ M ∈ res, ∀ i, i < fmat.length → (fmat.getD i []).headD .ninf ≤ (fmat.getD M []).headD .ninf := by
  have hpos : 0 < fmat.length := List.length_pos_iff.2 hne
  obtain ⟨M, hM, hmax⟩ := Finset.exists_max_image (Finset.range fmat.length) (fun i => (fmat.getD i []).headD .ninf) ⟨0, by simpa using hpos⟩
  simp only [Finset.mem_range] at hM hmax
  have hrow : ∀ i, i < fmat.length → ∃ v, fmat.getD i [] = [v] := by
    intro i hi
    exact List.length_eq_one_iff.1 (by rw [List.getD_eq_getElem?_getD, List.getElem?_eq_getElem hi]; exact hm _ (List.getElem_mem hi))
  have hMres : M ∈ res := by
    rw [h.2]
    refine ⟨hM, fun j hj hd => ?_⟩
    obtain ⟨v, hv⟩ := hrow M hM
    obtain ⟨w, hw⟩ := hrow j hj
    have := hmax j hj
    dsimp only at hd
    rw [hv, hw] at this hd
    exact absurd (definitelyLess_lt ht (dominates_one hd)) (not_lt.2 this)
  have hcov : ∀ i, i < fmat.length → i ∈ res ∨ Dominates t (fmat.getD M []) (fmat.getD i []) := by
    intro i hi
    by_cases hir : i ∈ res
    · exact Or.inl hir
    · right
      have : ¬ ∀ j, j < fmat.length → ¬ Dominates t (fmat.getD j []) (fmat.getD i []) := fun hall => hir ((h.2 i).2 ⟨hi, hall⟩)
      push Not at this
      obtain ⟨j, hj, hd⟩ := this
      have hle := hmax j hj
      obtain ⟨v, hv⟩ := hrow M hM
      obtain ⟨w, hw⟩ := hrow j hj
      obtain ⟨u, hu⟩ := hrow i hi
      rw [hv, hw] at hle
      rw [hw, hu] at hd
      rw [hv, hu]
      exact one_dominates ht (definitelyLess_mono ht hr (dominates_one hd) le_rfl hle)
  refine ⟨⟨h.1, fun i hi => ((h.2 i).1 hi).1, ?_, ?_⟩, M, hMres, hmax⟩
  · intro i hi
    exact (hcov i hi).imp id fun hd => ⟨M, hM, dominates_beats ht hd⟩
  · intro i hi
    rcases hcov i hi with hh | hh
    · exact ⟨i, hh, .refl⟩
    · exact ⟨M, hMres, .single ⟨hi, hM, dominates_beats ht hh⟩⟩

/-- `findParetoFront` for every tolerance. -/
theorem findParetoFront_tol {t : Tol K} (ht : t.Valid) (hr : t.rel ≤ 1) {m : Nat} {fmat : FMat K} (hm : IsMatrix m fmat) :
    ∃ res, findParetoFront t m fmat = some res ∧ FrontTol t fmat res := by
  unfold findParetoFront
  split
  · rename_i he
    subst he
    exact ⟨[], rfl, by simp, by simp, by simp, by simp⟩
  · rename_i hne
    split
    · rename_i h1
      subst h1
      obtain ⟨res, h1, h2⟩ := findParetoFront1D_spec ht hr hm hne
      exact ⟨res, h1, (frontTol_one ht hr hm hne h2).1⟩
    · exact findParetoFrontBest_tol ht fmat

/-- The efficient non-dominated sort for every tolerance. -/
theorem ens_tol {t : Tol K} (ht : t.Valid) (hr : t.rel ≤ 1) {m : Nat} {fmat : FMat K} (hm : IsMatrix m fmat) {indices : List Nat}
    (hs : IsArgsort (rowLexLess fmat) fmat.length indices) :
    ∃ res, efficientNonDominatedSort t fmat indices = some res ∧ (res.map (·.1)).Perm (List.range fmat.length) ∧
      RankTol fmat.length (rowLess t fmat) (fun i j => rowLexLess fmat j i = false)
        (fun i j => ClearlyDominates t (fmat.getD j []) (fmat.getD i [])) res := by
  have hirr : ∀ i, i < fmat.length → rowLess t fmat i i = false := by
    intro i _
    rw [← Bool.not_eq_true, show rowLess t fmat i i = true ↔ _ from less_iff_beats ht _ _]
    rintro ⟨-, k, h1, h2, hg⟩
    exact lt_irrefl _ (greaterBy_lt ht hg)
  have hlen : ∀ i, i < fmat.length → (fmat.getD i []).length = m := by
    intro i hi
    rw [List.getD_eq_getElem?_getD, List.getElem?_eq_getElem hi]; exact hm _ (List.getElem_mem hi)
  obtain ⟨res, h1, h2, h3⟩ := ensLoop_tol (n := fmat.length) (less := rowLess t fmat) (bef := fun i j => rowLexLess fmat j i = false)
    (clear := fun i j => ClearlyDominates t (fmat.getD j []) (fmat.getD i [])) hirr
    (by
      intro i j hi hj hc
      refine ⟨(less_iff_beats ht _ _).2 (clearlyDominates_beats ht hc), ?_, ?_⟩
      · have : rowLexLess fmat j i = true := lexGreater_of_dominates _ _ (by rw [hlen i hi, hlen j hj]) (clearlyDominates_exact ht hc)
        simp [this]
      · intro k hk hjk
        exact (less_iff_beats ht _ _).2 (beats_of_le ht hr (by rw [hlen i hi, hlen j hj]) ((less_iff_beats ht _ _).1 hjk) hc.1))
    indices [] ⟨by simp, by simp, by simp, by simp, by simp, by simp⟩ hs.2 (hs.1.nodup_iff.2 List.nodup_range) (fun x hx => by simpa using hs.1.mem_iff.1 hx) (by simp) (by simp)
  refine ⟨res, h1, ?_, h2⟩
  simpa using h3.trans (by simpa using hs.1)

end Rows

end Gapp.Model
