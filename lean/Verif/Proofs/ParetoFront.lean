import Verif.Spec.ParetoFront
import Verif.Model.ParetoFront
import Verif.Proofs.Float
import Verif.Proofs.ListAux
/-! Proofs about the Pareto front functions. -/

namespace Gapp.Model
open Gapp.Spec

/-- `less` is a strict partial order on the indices below `n`. -/
structure SPO (n : Nat) (less : Nat → Nat → Bool) : Prop where
  irrefl : ∀ i, i < n → less i i = false
  trans : ∀ i j k, i < n → j < n → k < n → less i j = true → less j k = true → less i k = true

theorem SPO.asymm {n : Nat} {less : Nat → Nat → Bool} (h : SPO n less) {i j : Nat} (hi : i < n) (hj : j < n)
    (h1 : less i j = true) : less j i = false := by
  cases e : less j i
  · rfl
  · have := h.trans i j i hi hj hi h1 e
    rw [h.irrefl i hi] at this; cases this

/-- `x` is not dominated by an element of `P`. -/
def nd (less : Nat → Nat → Bool) (P : List Nat) (x : Nat) : Bool := !P.any (fun z => less x z)

theorem nd_iff {less : Nat → Nat → Bool} {P : List Nat} {x : Nat} :
    nd less P x = true ↔ ∀ z ∈ P, less x z = false := by
  simp [nd]

/-- Every element of a finite set is maximal or dominated by a maximal element. -/
theorem exists_maximal {n : Nat} {less : Nat → Nat → Bool} (h : SPO n less) (P : List Nat)
    (hP : ∀ x ∈ P, x < n) : ∀ (k : Nat) (x : Nat), x ∈ P → P.countP (fun z => less x z) ≤ k →
      ∃ y ∈ P, (y = x ∨ less x y = true) ∧ nd less P y = true := by
  intro k
  induction k with
  | zero =>
    intro x hx hk
    refine ⟨x, hx, Or.inl rfl, nd_iff.2 ?_⟩
    intro z hz
    have := List.countP_eq_zero.1 (Nat.le_zero.1 hk) z hz
    simpa using this
  | succ k ih =>
    intro x hx hk
    by_cases hnd : nd less P x = true
    · exact ⟨x, hx, Or.inl rfl, hnd⟩
    · simp only [nd, Bool.not_eq_true', Bool.not_eq_false, List.any_eq_true] at hnd
      obtain ⟨z, hz, hxz⟩ := hnd
      have hlt : P.countP (fun w => less z w) < P.countP (fun w => less x w) := by
        have hle : P.countP (fun w => less z w) = P.countP (fun w => less x w && less z w) := by
          apply List.countP_congr
          intro w hw
          constructor
          · intro hzw
            simp only [Bool.and_eq_true]
            exact ⟨h.trans x z w (hP x hx) (hP z hz) (hP w hw) hxz hzw, hzw⟩
          · intro hzw; simp only [Bool.and_eq_true] at hzw; exact hzw.2
        rw [hle, List.countP_eq_length_filter, List.countP_eq_length_filter]
        have hmem : z ∈ P.filter (fun w => less x w) := List.mem_filter.2 ⟨hz, hxz⟩
        have : (P.filter (fun a => less x a && less z a)) =
            (P.filter (fun w => less x w)).filter (fun w => less z w) := by
          rw [List.filter_filter]; congr 1; funext a; rw [Bool.and_comm]
        rw [this]
        refine Nat.lt_of_le_of_ne (List.length_filter_le _ _) ?_
        intro he
        have := List.length_filter_eq_length_iff.1 he z hmem
        rw [h.irrefl z (hP z hz)] at this; cases this
      obtain ⟨y, hy, hzy, hny⟩ := ih z hz (by omega)
      refine ⟨y, hy, Or.inr ?_, hny⟩
      rcases hzy with rfl | hzy
      · exact hxz
      · exact h.trans x z y (hP x hx) (hP z hz) (hP y hy) hxz hzy

/-- If some element of `P` dominates `x`, so does a maximal one. -/
theorem any_maximal_iff {n : Nat} {less : Nat → Nat → Bool} (h : SPO n less) (P : List Nat)
    (hP : ∀ x ∈ P, x < n) (x : Nat) (hx : x < n) :
    (P.filter (nd less P)).any (fun z => less x z) = P.any (fun z => less x z) := by
  rw [Bool.eq_iff_iff, List.any_eq_true, List.any_eq_true]
  constructor
  · rintro ⟨z, hz, hl⟩; exact ⟨z, (List.mem_filter.1 hz).1, hl⟩
  · rintro ⟨z, hz, hl⟩
    obtain ⟨y, hy, hzy, hny⟩ := exists_maximal h P hP _ z hz (Nat.le_refl _)
    refine ⟨y, List.mem_filter.2 ⟨hy, hny⟩, ?_⟩
    rcases hzy with rfl | hzy
    · exact hl
    · exact h.trans x z y hx (hP z hz) (hP y hy) hl hzy

/-- No element of the list is dominated by a later one. -/
def TopoSorted (less : Nat → Nat → Bool) (l : List Nat) : Prop := l.Pairwise (fun a b => less a b = false)

theorem frontSortLoop_snoc (less : Nat → Nat → Bool) (l : List Nat) (a : Nat) :
    frontSortLoop less (l ++ [a]) = if (frontSortLoop less l).any (fun o => less a o)
      then frontSortLoop less l else frontSortLoop less l ++ [a] := by
  simp [frontSortLoop, List.foldl_append]

theorem frontSortLoop_eq {n : Nat} {less : Nat → Nat → Bool} (h : SPO n less) (l : List Nat)
    (hl : ∀ x ∈ l, x < n) (hs : TopoSorted less l) : frontSortLoop less l = l.filter (nd less l) := by
  induction l using ListAux.snoc_induction with
  | nil => rfl
  | append_singleton l a ih =>
    have hs' := List.pairwise_append.1 hs
    have hl' : ∀ x ∈ l, x < n := fun x hx => hl x (List.mem_append_left _ hx)
    have ha : a < n := hl a (by simp)
    rw [frontSortLoop_snoc, ih hl' hs'.1, any_maximal_iff h l hl' a ha, List.filter_append]
    have e1 : l.filter (nd less (l ++ [a])) = l.filter (nd less l) := by
      apply List.filter_congr
      intro x hx
      have := hs'.2.2 x hx a (by simp)
      simp [nd, this]
    rw [e1]
    have e2 : nd less (l ++ [a]) a = !l.any (fun o => less a o) := by
      simp [nd, List.any_append, h.irrefl a ha]
    rw [List.filter_cons, e2]
    cases l.any (fun o => less a o) <;> simp

theorem kungMerge_eq (less : Nat → Nat → Bool) (top bottom : List Nat)
    (hb : ∀ x ∈ bottom, ∀ y ∈ bottom, less x y = false) :
    kungMerge less top bottom = top ++ bottom.filter (fun x => !top.any (fun z => less x z)) := by
  induction bottom using ListAux.snoc_induction with
  | nil => simp [kungMerge]
  | append_singleton l a ih =>
    have ih := ih (fun x hx y hy => hb x (List.mem_append_left _ hx) y (List.mem_append_left _ hy))
    unfold kungMerge at *
    rw [List.foldl_append, ih]
    simp only [List.foldl_cons, List.foldl_nil, List.any_append, List.filter_append,
      List.filter_cons, List.filter_nil]
    have : (l.filter (fun x => !top.any (fun z => less x z))).any (fun z => less a z) = false := by
      rw [List.any_eq_false]
      intro z hz
      rw [hb a (by simp) z (List.mem_append_left _ (List.mem_filter.1 hz).1)]
      simp
    rw [this, Bool.or_false]
    cases h : top.any (fun z => less a z) <;> simp

theorem kungImpl_eq {n : Nat} {less : Nat → Nat → Bool} (h : SPO n less) :
    ∀ (k : Nat) (l : List Nat), l.length ≤ k → l ≠ [] → (∀ x ∈ l, x < n) → TopoSorted less l →
      kungImpl less l = some (l.filter (nd less l)) := by
  intro k
  induction k with
  | zero => intro l hk hne; cases l <;> simp_all
  | succ k ih =>
    intro l hk hne hl hs
    have hlen : 0 < l.length := List.length_pos_iff.2 hne
    rw [kungImpl]
    rw [if_neg (by omega)]
    split
    · rename_i h1
      match l, h1 with
      | [a], _ =>
        have := h.irrefl a (hl a (by simp))
        simp [nd, this]
    · rename_i h1
      generalize hA : l.take (l.length / 2) = A
      generalize hB : l.drop (l.length / 2) = B
      have hAB : l = A ++ B := by rw [← hA, ← hB, List.take_append_drop]
      have hAl : A.length = l.length / 2 := by rw [← hA]; simp; omega
      have hBl : B.length = l.length - l.length / 2 := by rw [← hB]; simp
      have hlA : ∀ x ∈ A, x < n := fun x hx => hl x (by rw [hAB]; exact List.mem_append_left _ hx)
      have hlB : ∀ x ∈ B, x < n := fun x hx => hl x (by rw [hAB]; exact List.mem_append_right _ hx)
      have hs' := List.pairwise_append.1 (hAB ▸ hs)
      rw [ih A (by omega) (by intro e; simp [e] at hAl; omega) hlA hs'.1,
        ih B (by omega) (by intro e; simp [e] at hBl; omega) hlB hs'.2.1]
      simp only [Option.bind_eq_bind, Option.bind_some, Option.pure_def]
      congr 1
      rw [kungMerge_eq]
      · rw [hAB, List.filter_append]
        congr 1
        · apply List.filter_congr
          intro x hx
          have : B.any (fun z => less x z) = false := by
            rw [List.any_eq_false]; intro z hz; rw [hs'.2.2 x hx z hz]; simp
          simp [nd, List.any_append, this]
        · rw [List.filter_filter]
          apply List.filter_congr
          intro x hx
          rw [any_maximal_iff h A hlA x (hlB x hx)]
          simp [nd, List.any_append]
      · intro x hx y hy
        exact nd_iff.1 (List.mem_filter.1 hx).2 y (List.mem_filter.1 hy).1

/-! ### The BEST algorithm -/

section Best
variable {n : Nat} {less : Nat → Nat → Bool}

/-- Main invariant of the BEST algorithm: `opt` are the selected indices, `A` the remaining ones. -/
structure BestInv (n : Nat) (less : Nat → Nat → Bool) (opt : List Nat) (A : Nat → Prop) : Prop where
  sub : ∀ x, A x → x < n
  optSub : ∀ x ∈ opt, x < n
  cover : ∀ x, x < n → A x ∨ x ∈ opt ∨ ∃ y, (A y ∨ y ∈ opt) ∧ less x y = true
  sep : ∀ o ∈ opt, ∀ x, A x → less x o = false
  max : ∀ o ∈ opt, ∀ x, x < n → less o x = false
  nodup : opt.Nodup
  disj : ∀ x ∈ opt, ¬ A x

theorem BestInv.remove (h : SPO n less) {opt : List Nat} {A : Nat → Prop} (hi : BestInv n less opt A)
    {x y : Nat} (hx : A x) (hy : A y) (hxy : less x y = true) :
    BestInv n less opt (fun z => A z ∧ z ≠ x) := by
  have hne : y ≠ x := by
    rintro rfl; rw [h.irrefl _ (hi.sub _ hx)] at hxy; cases hxy
  refine ⟨fun z hz => hi.sub z hz.1, hi.optSub, ?_, fun o ho z hz => hi.sep o ho z hz.1, hi.max, hi.nodup,
    fun z hz hA => hi.disj z hz hA.1⟩
  intro z hz
  rcases hi.cover z hz with hA | ho | ⟨w, hw, hzw⟩
  · by_cases e : z = x
    · subst e; exact Or.inr (Or.inr ⟨y, Or.inl ⟨hy, hne⟩, hxy⟩)
    · exact Or.inl ⟨hA, e⟩
  · exact Or.inr (Or.inl ho)
  · rcases hw with hw | hw
    · by_cases e : w = x
      · subst e
        exact Or.inr (Or.inr ⟨y, Or.inl ⟨hy, hne⟩,
          h.trans z w y hz (hi.sub _ hx) (hi.sub _ hy) hzw hxy⟩)
      · exact Or.inr (Or.inr ⟨w, Or.inl ⟨hw, e⟩, hzw⟩)
    · exact Or.inr (Or.inr ⟨w, Or.inr hw, hzw⟩)

theorem BestInv.select (h : SPO n less) {opt : List Nat} {A : Nat → Prop} (hi : BestInv n less opt A)
    {b : Nat} (hb : A b) (hmax : ∀ x, A x → less b x = false) (hsep : ∀ x, A x → less x b = false) :
    BestInv n less (opt ++ [b]) (fun z => A z ∧ z ≠ b) := by
  refine ⟨fun z hz => hi.sub z hz.1, ?_, ?_, ?_, ?_, ?_, ?_⟩
  · intro x hx
    rcases List.mem_append.1 hx with hx | hx
    · exact hi.optSub x hx
    · rw [List.mem_singleton.1 hx]; exact hi.sub b hb
  · intro x hx
    rcases hi.cover x hx with hA | ho | ⟨y, hy, hxy⟩
    · by_cases e : x = b
      · subst e; exact Or.inr (Or.inl (by simp))
      · exact Or.inl ⟨hA, e⟩
    · exact Or.inr (Or.inl (by simp [ho]))
    · refine Or.inr (Or.inr ⟨y, ?_, hxy⟩)
      rcases hy with hy | hy
      · by_cases e : y = b
        · subst e; right; simp
        · left; exact ⟨hy, e⟩
      · right; simp [hy]
  · intro o ho x hx
    rcases List.mem_append.1 ho with ho | ho
    · exact hi.sep o ho x hx.1
    · rw [List.mem_singleton.1 ho]; exact hsep x hx.1
  · intro o ho x hx
    rcases List.mem_append.1 ho with ho | ho
    · exact hi.max o ho x hx
    · rw [List.mem_singleton.1 ho]
      cases e : less b x
      · rfl
      · rcases hi.cover x hx with hA | ho' | ⟨y, hy, hxy⟩
        · rw [hmax x hA] at e; cases e
        · rw [hi.sep x ho' b hb] at e; cases e
        · rcases hy with hy | hy
          · have := h.trans b x y (hi.sub b hb) hx (hi.sub y hy) e hxy
            rw [hmax y hy] at this; cases this
          · have := h.trans b x y (hi.sub b hb) hx (hi.optSub y hy) e hxy
            rw [hi.sep y hy b hb] at this; cases this
  · rw [List.nodup_append]
    refine ⟨hi.nodup, by simp, ?_⟩
    intro a ha c hc
    rw [List.mem_singleton.1 hc]
    rintro rfl
    exact hi.disj _ ha hb
  · intro x hx hA
    rcases List.mem_append.1 hx with hx | hx
    · exact hi.disj x hx hA.1
    · exact hA.2 (List.mem_singleton.1 hx)

/-- The indices in the positions `[first, last)` of the array. -/
def Alive (arr : List Nat) (first last x : Nat) : Prop := ∃ p, first ≤ p ∧ p < last ∧ arr[p]? = some x

theorem swap?_eq {α : Type} {l : List α} {i j : Nat} (hi : i < l.length) (hj : j < l.length) :
    ∃ l', swap? l i j = some l' ∧ l'.Perm l ∧ ∀ p, l'[p]? =
      if p = j then l[i]? else if p = i then l[j]? else l[p]? := by
  refine ⟨(l.set i l[j]).set j l[i], ?_, List.set_set_perm hi hj, ?_⟩
  · simp [swap?, hi, hj]
  · intro p
    rw [List.getElem?_set, List.getElem?_set]
    simp only [List.length_set]
    by_cases h1 : j = p
    · subst h1; simp [hi, hj]
    · by_cases h2 : i = p
      · subst h2; simp [h1, Ne.symm h1, hi, hj]
      · simp [h1, h2, Ne.symm h1, Ne.symm h2]

theorem nodup_getElem? {l : List Nat} (hl : l.Nodup) {p q x : Nat} (hp : l[p]? = some x)
    (hq : l[q]? = some x) : p = q := by
  obtain ⟨h1, h2⟩ := List.getElem?_eq_some_iff.1 hp
  obtain ⟨h3, h4⟩ := List.getElem?_eq_some_iff.1 hq
  exact (List.getElem_inj hl).1 (h2.trans h4.symm)

theorem bestScan_spec (h : SPO n less) {cmp : Nat → Nat → Int}
    (hc1 : ∀ i j, i < n → j < n → (cmp i j > 0 ↔ less j i = true))
    (hc2 : ∀ i j, i < n → j < n → (cmp i j < 0 ↔ less i j = true)) (opt : List Nat) :
    ∀ (k : Nat) (arr : List Nat) (first last best it b : Nat), last - it = k →
      arr.Perm (List.range n) → first ≤ best → best < it → it ≤ last → last ≤ n →
      arr[best]? = some b →
      BestInv n less opt (Alive arr first last) →
      (∀ p x, first ≤ p → p < it → arr[p]? = some x → less b x = false) →
      (∀ p x, best ≤ p → p < it → arr[p]? = some x → less x b = false) →
      ∃ arr' first' last' best' b', bestScan cmp k arr first last best it = some (arr', first', last', best') ∧
        arr'.Perm (List.range n) ∧ first' ≤ best' ∧ best' < last' ∧ last' ≤ n ∧
        last' - first' ≤ last - first ∧ arr'[best']? = some b' ∧
        BestInv n less opt (Alive arr' first' last') ∧
        (∀ p x, first' ≤ p → p < last' → arr'[p]? = some x → less b' x = false) ∧
        (∀ p x, best' ≤ p → p < last' → arr'[p]? = some x → less x b' = false) := by
  intro k
  induction k with
  | zero =>
    intro arr first last best it b hk hperm h1 h2 h3 h4 hb hinv hJ hJ'
    have : it = last := by omega
    subst this
    rw [bestScan]
    exact ⟨arr, first, it, best, b, rfl, hperm, h1, h2, h4, Nat.le_refl _, hb, hinv, hJ, hJ'⟩
  | succ k ih =>
    intro arr first last best it b hk hperm h1 h2 h3 h4 hb hinv hJ hJ'
    by_cases hlt : it < last
    · have hlen : arr.length = n := by simpa using hperm.length_eq
      have hnd : arr.Nodup := hperm.nodup_iff.2 List.nodup_range
      have hx : arr[it]? = some (arr[it]'(by omega)) := List.getElem?_eq_getElem (by omega)
      generalize (arr[it]'(by omega)) = x at hx
      have hmem : ∀ {q z : Nat}, arr[q]? = some z → z < n := by
        intro q z hq
        have := List.mem_of_getElem? hq
        simpa using hperm.mem_iff.1 this
      have hbn := hmem hb
      have hxn := hmem hx
      have hAb : Alive arr first last b := ⟨best, h1, by omega, hb⟩
      have hAx : Alive arr first last x := ⟨it, by omega, by omega, hx⟩
      rw [bestScan, hb, hx]
      simp only [Option.bind_eq_bind, Option.bind_some]
      by_cases hgt : cmp b x > 0
      · rw [if_pos hgt]
        have hdom := (hc1 b x hbn hxn).1 hgt
        obtain ⟨arr', e1, e2, e3⟩ := swap?_eq (l := arr) (i := it) (j := last - 1) (by omega) (by omega)
        rw [e1]
        simp only [Option.bind_some]
        have hset : Alive arr' first (last - 1) = fun z => Alive arr first last z ∧ z ≠ x := by
          funext z; apply propext
          constructor
          · rintro ⟨p, hp1, hp2, hp3⟩
            rw [e3, if_neg (by omega)] at hp3
            split at hp3
            · refine ⟨⟨last - 1, by omega, by omega, hp3⟩, ?_⟩
              rintro rfl
              have := nodup_getElem? hnd hp3 hx
              omega
            · refine ⟨⟨p, hp1, by omega, hp3⟩, ?_⟩
              rintro rfl
              have := nodup_getElem? hnd hp3 hx
              omega
          · rintro ⟨⟨p, hp1, hp2, hp3⟩, hne⟩
            have hpit : p ≠ it := by rintro rfl; rw [hx] at hp3; exact hne (Option.some.inj hp3).symm
            by_cases hpl : p = last - 1
            · subst hpl
              refine ⟨it, by omega, by omega, ?_⟩
              rw [e3, if_neg (by omega), if_pos rfl]; exact hp3
            · refine ⟨p, hp1, by omega, ?_⟩
              rw [e3, if_neg hpl, if_neg hpit]; exact hp3
        have hsame : ∀ p, p < it → arr'[p]? = arr[p]? := by
          intro p hp; rw [e3, if_neg (by omega), if_neg (by omega)]
        obtain ⟨a', f', l', b1, b', r1, r2, r3, r4, r5, r6, r7⟩ :=
          ih arr' first (last - 1) best it b (by omega) (e2.trans hperm) h1 h2 (by omega) (by omega)
            (by rw [hsame _ h2]; exact hb) (by rw [hset]; exact hinv.remove h hAx hAb hdom)
            (by intro p z hp1 hp2 hp3; rw [hsame p hp2] at hp3; exact hJ p z hp1 hp2 hp3)
            (by intro p z hp1 hp2 hp3; rw [hsame p hp2] at hp3; exact hJ' p z hp1 hp2 hp3)
        exact ⟨a', f', l', b1, b', r1, r2, r3, r4, r5, by omega, r7⟩
      · rw [if_neg hgt]
        by_cases hltc : cmp b x < 0
        · rw [if_pos hltc]
          have hdom := (hc2 b x hbn hxn).1 hltc
          obtain ⟨arr', e1, e2, e3⟩ := swap?_eq (l := arr) (i := best) (j := first) (by omega) (by omega)
          rw [e1]
          simp only [Option.bind_some]
          have hset : Alive arr' (first + 1) last = fun z => Alive arr first last z ∧ z ≠ b := by
            funext z; apply propext
            constructor
            · rintro ⟨p, hp1, hp2, hp3⟩
              rw [e3, if_neg (by omega)] at hp3
              split at hp3
              · refine ⟨⟨first, by omega, by omega, hp3⟩, ?_⟩
                rintro rfl
                have := nodup_getElem? hnd hp3 hb
                omega
              · refine ⟨⟨p, by omega, by omega, hp3⟩, ?_⟩
                rintro rfl
                have := nodup_getElem? hnd hp3 hb
                omega
            · rintro ⟨⟨p, hp1, hp2, hp3⟩, hne⟩
              have hpb : p ≠ best := by rintro rfl; rw [hb] at hp3; exact hne (Option.some.inj hp3).symm
              by_cases hpf : p = first
              · subst hpf
                refine ⟨best, by omega, by omega, ?_⟩
                rw [e3, if_neg (by omega), if_pos rfl]; exact hp3
              · refine ⟨p, by omega, hp2, ?_⟩
                rw [e3, if_neg hpf, if_neg hpb]; exact hp3
          have hit : arr'[it]? = some x := by
            rw [e3, if_neg (by omega), if_neg (by omega)]; exact hx
          obtain ⟨a', f', l', b1, b', r1, r2, r3, r4, r5, r6, r7⟩ :=
            ih arr' (first + 1) last it (it + 1) x (by omega) (e2.trans hperm) (by omega) (by omega)
              (by omega) (by omega) hit (by rw [hset]; exact hinv.remove h hAb hAx hdom)
              (by
                intro p z hp1 hp2 hp3
                have hzn : z < n := by
                  have := List.mem_of_getElem? hp3
                  simpa using (e2.trans hperm).mem_iff.1 this
                cases e : less x z
                · rfl
                · by_cases hpit : p = it
                  · subst hpit; rw [hit] at hp3; cases hp3
                    rw [h.irrefl _ hxn] at e; cases e
                  · rw [e3, if_neg (by omega)] at hp3
                    have hbz := h.trans b x z hbn hxn hzn hdom e
                    split at hp3
                    · rw [hJ first z (Nat.le_refl _) (by omega) hp3] at hbz; cases hbz
                    · rw [hJ p z (by omega) (by omega) hp3] at hbz; cases hbz)
              (by
                intro p z hp1 hp2 hp3
                have hpit : p = it := by omega
                subst hpit; rw [hit] at hp3; cases hp3
                exact h.irrefl _ hxn)
          exact ⟨a', f', l', b1, b', r1, r2, r3, r4, r5, by omega, r7⟩
        · rw [if_neg hltc]
          have n1 : less x b = false := by
            cases e : less x b
            · rfl
            · exact absurd ((hc1 b x hbn hxn).2 e) hgt
          have n2 : less b x = false := by
            cases e : less b x
            · rfl
            · exact absurd ((hc2 b x hbn hxn).2 e) hltc
          refine ih arr first last best (it + 1) b (by omega) hperm h1 (by omega) (by omega) h4 hb hinv ?_ ?_
          · intro p z hp1 hp2 hp3
            by_cases hpit : p = it
            · subst hpit; rw [hx] at hp3; cases hp3; exact n2
            · exact hJ p z hp1 (by omega) hp3
          · intro p z hp1 hp2 hp3
            by_cases hpit : p = it
            · subst hpit; rw [hx] at hp3; cases hp3; exact n1
            · exact hJ' p z hp1 (by omega) hp3
    · omega

theorem bestPrune_spec (h : SPO n less) (opt : List Nat) (last best b : Nat) (hbl : best < last)
    (hln : last ≤ n) :
    ∀ (k : Nat) (arr : List Nat) (first it : Nat), best - it = k →
      arr.Perm (List.range n) → first ≤ it → it ≤ best → arr[best]? = some b →
      BestInv n less opt (Alive arr first last) →
      (∀ p x, first ≤ p → p < it → arr[p]? = some x → less x b = false) →
      (∀ p x, first ≤ p → p < last → arr[p]? = some x → less b x = false) →
      (∀ p x, best ≤ p → p < last → arr[p]? = some x → less x b = false) →
      ∃ arr' first', bestPrune less k arr first best it = some (arr', first') ∧
        arr'.Perm (List.range n) ∧ first ≤ first' ∧ first' ≤ best ∧ arr'[best]? = some b ∧
        BestInv n less opt (Alive arr' first' last) ∧
        (∀ x, Alive arr' first' last x → less b x = false) ∧
        (∀ x, Alive arr' first' last x → less x b = false) := by
  intro k
  induction k with
  | zero =>
    intro arr first it hk hperm h1 h2 hb hinv hP hJ hJ'
    have : it = best := by omega
    subst this
    rw [bestPrune]
    refine ⟨arr, first, rfl, hperm, Nat.le_refl _, h1, hb, hinv, ?_, ?_⟩
    · rintro x ⟨p, hp1, hp2, hp3⟩; exact hJ p x hp1 hp2 hp3
    · rintro x ⟨p, hp1, hp2, hp3⟩
      by_cases hp : p < it
      · exact hP p x hp1 hp hp3
      · exact hJ' p x (by omega) hp2 hp3
  | succ k ih =>
    intro arr first it hk hperm h1 h2 hb hinv hP hJ hJ'
    by_cases hlt : it < best
    · have hlen : arr.length = n := by simpa using hperm.length_eq
      have hnd : arr.Nodup := hperm.nodup_iff.2 List.nodup_range
      have hx : arr[it]? = some (arr[it]'(by omega)) := List.getElem?_eq_getElem (by omega)
      generalize (arr[it]'(by omega)) = x at hx
      have hAb : Alive arr first last b := ⟨best, by omega, by omega, hb⟩
      have hAx : Alive arr first last x := ⟨it, by omega, by omega, hx⟩
      rw [bestPrune, hb, hx]
      simp only [Option.bind_eq_bind, Option.bind_some]
      by_cases hl : less x b = true
      · rw [if_pos hl]
        obtain ⟨arr', e1, e2, e3⟩ := swap?_eq (l := arr) (i := it) (j := first) (by omega) (by omega)
        rw [e1]
        simp only [Option.bind_some]
        have hset : Alive arr' (first + 1) last = fun z => Alive arr first last z ∧ z ≠ x := by
          funext z; apply propext
          constructor
          · rintro ⟨p, hp1, hp2, hp3⟩
            rw [e3, if_neg (by omega)] at hp3
            split at hp3
            · refine ⟨⟨first, by omega, by omega, hp3⟩, ?_⟩
              rintro rfl
              have := nodup_getElem? hnd hp3 hx
              omega
            · refine ⟨⟨p, by omega, by omega, hp3⟩, ?_⟩
              rintro rfl
              have := nodup_getElem? hnd hp3 hx
              omega
          · rintro ⟨⟨p, hp1, hp2, hp3⟩, hne⟩
            have hpb : p ≠ it := by rintro rfl; rw [hx] at hp3; exact hne (Option.some.inj hp3).symm
            by_cases hpf : p = first
            · subst hpf
              refine ⟨it, by omega, by omega, ?_⟩
              rw [e3, if_neg (by omega), if_pos rfl]; exact hp3
            · refine ⟨p, by omega, hp2, ?_⟩
              rw [e3, if_neg hpf, if_neg hpb]; exact hp3
        obtain ⟨a', f', r1, r2, r3, r4, r5⟩ :=
          ih arr' (first + 1) (it + 1) (by omega) (e2.trans hperm) (by omega) (by omega)
            (by rw [e3, if_neg (by omega), if_neg (by omega)]; exact hb)
            (by rw [hset]; exact hinv.remove h hAx hAb hl)
            (by
              intro p z hp1 hp2 hp3
              rw [e3, if_neg (by omega)] at hp3
              split at hp3
              · exact hP first z (Nat.le_refl _) (by omega) hp3
              · exact hP p z (by omega) (by omega) hp3)
            (by
              intro p z hp1 hp2 hp3
              rw [e3, if_neg (by omega)] at hp3
              split at hp3
              · exact hJ first z (Nat.le_refl _) (by omega) hp3
              · exact hJ p z (by omega) (by omega) hp3)
            (by
              intro p z hp1 hp2 hp3
              rw [e3, if_neg (by omega), if_neg (by omega)] at hp3
              exact hJ' p z hp1 hp2 hp3)
        exact ⟨a', f', r1, r2, by omega, r4, r5⟩
      · rw [if_neg hl]
        refine ih arr first (it + 1) (by omega) hperm (by omega) (by omega) hb hinv ?_ hJ hJ'
        intro p z hp1 hp2 hp3
        by_cases hpit : p = it
        · subst hpit; rw [hx] at hp3; cases hp3; simpa using hl
        · exact hP p z hp1 (by omega) hp3
    · omega

theorem bestOuter_spec (h : SPO n less) {cmp : Nat → Nat → Int}
    (hc1 : ∀ i j, i < n → j < n → (cmp i j > 0 ↔ less j i = true))
    (hc2 : ∀ i j, i < n → j < n → (cmp i j < 0 ↔ less i j = true)) :
    ∀ (fuel : Nat) (arr : List Nat) (first last : Nat) (opt : List Nat),
      last - first ≤ fuel → first ≤ last → last ≤ n → arr.Perm (List.range n) →
      BestInv n less opt (Alive arr first last) →
      ∃ res, bestOuter cmp less fuel arr first last opt = some res ∧ BestInv n less res (fun _ => False) := by
  intro fuel
  have hend : ∀ (arr : List Nat) (first : Nat), Alive arr first first = fun _ => False := by
    intro arr first; funext z; apply propext
    exact ⟨fun ⟨p, h1, h2, _⟩ => by omega, False.elim⟩
  induction fuel with
  | zero =>
    intro arr first last opt hf hle hn hperm hinv
    have : first = last := by omega
    subst this
    exact ⟨opt, by simp [bestOuter], by rw [hend] at hinv; exact hinv⟩
  | succ fuel ih =>
    intro arr first last opt hf hle hn hperm hinv
    by_cases heq : first = last
    · subst heq
      exact ⟨opt, by simp [bestOuter], by rw [hend] at hinv; exact hinv⟩
    · have hlen : arr.length = n := by simpa using hperm.length_eq
      have hb : arr[first]? = some (arr[first]'(by omega)) := List.getElem?_eq_getElem (by omega)
      generalize (arr[first]'(by omega)) = b at hb
      have hbn : b < n := by
        have := List.mem_of_getElem? hb
        simpa using hperm.mem_iff.1 this
      obtain ⟨a1, f1, l1, best, b', r1, r2, r3, r4, r5, r6, r7, r8, r9, r10⟩ :=
        bestScan_spec h hc1 hc2 opt _ arr first last first (first + 1) b rfl hperm
          (Nat.le_refl _) (by omega) (by omega) hn hb hinv
          (by
            intro p x hp1 hp2 hp3
            have : p = first := by omega
            subst this; rw [hb] at hp3; cases hp3; exact h.irrefl _ hbn)
          (by
            intro p x hp1 hp2 hp3
            have : p = first := by omega
            subst this; rw [hb] at hp3; cases hp3; exact h.irrefl _ hbn)
      obtain ⟨a2, f2, s1, s2, s3, s4, s5, s6, s7, s8⟩ :=
        bestPrune_spec h opt l1 best b' r4 r5 _ a1 f1 f1 rfl r2 (Nat.le_refl _) r3 r7 r8
          (by intro p x hp1 hp2; omega) r9 r10
      have hlen2 : a2.length = n := by simpa using s2.length_eq
      have hnd2 : a2.Nodup := s2.nodup_iff.2 List.nodup_range
      obtain ⟨a3, e1, e2, e3⟩ := swap?_eq (l := a2) (i := best) (j := l1 - 1) (by omega) (by omega)
      have hset : Alive a3 f2 (l1 - 1) = fun z => Alive a2 f2 l1 z ∧ z ≠ b' := by
        funext z; apply propext
        constructor
        · rintro ⟨p, hp1, hp2, hp3⟩
          rw [e3, if_neg (by omega)] at hp3
          split at hp3
          · refine ⟨⟨l1 - 1, by omega, by omega, hp3⟩, ?_⟩
            rintro rfl
            have := nodup_getElem? hnd2 hp3 s5
            omega
          · refine ⟨⟨p, hp1, by omega, hp3⟩, ?_⟩
            rintro rfl
            have := nodup_getElem? hnd2 hp3 s5
            omega
        · rintro ⟨⟨p, hp1, hp2, hp3⟩, hne⟩
          have hpit : p ≠ best := by rintro rfl; rw [s5] at hp3; exact hne (Option.some.inj hp3).symm
          by_cases hpl : p = l1 - 1
          · subst hpl
            refine ⟨best, by omega, by omega, ?_⟩
            rw [e3, if_neg (by omega), if_pos rfl]; exact hp3
          · refine ⟨p, hp1, by omega, ?_⟩
            rw [e3, if_neg hpl, if_neg hpit]; exact hp3
      have hsel := s6.select h (b := b') ⟨best, by omega, by omega, s5⟩ s7 s8
      obtain ⟨res, t1, t2⟩ := ih a3 f2 (l1 - 1) (opt ++ [b']) (by omega) (by omega) (by omega)
        (e2.trans s2) (by rw [hset]; exact hsel)
      refine ⟨res, ?_, t2⟩
      rw [bestOuter, if_neg heq, r1]
      simp only [Option.bind_eq_bind, Option.bind_some, r7, s1, e1, t1]

theorem bestOuter_front (h : SPO n less) {cmp : Nat → Nat → Int}
    (hc1 : ∀ i j, i < n → j < n → (cmp i j > 0 ↔ less j i = true))
    (hc2 : ∀ i j, i < n → j < n → (cmp i j < 0 ↔ less i j = true)) :
    ∃ res, bestOuter cmp less n (List.range n) 0 n [] = some res ∧
      IsParetoFront (fun j i => less i j = true) n res := by
  obtain ⟨res, h1, h2⟩ := bestOuter_spec h hc1 hc2 n (List.range n) 0 n [] (by omega) (by omega) (by omega)
    (List.Perm.refl _) (by
      have hmem : ∀ x, x < n → Alive (List.range n) 0 n x := by
        intro x hx; exact ⟨x, by omega, hx, by simp [hx]⟩
      refine ⟨?_, by simp, fun x hx => Or.inl (hmem x hx), by simp, by simp, by simp, by simp⟩
      rintro x ⟨p, _, hp, he⟩
      have := List.mem_of_getElem? he
      simpa using this)
  refine ⟨res, h1, h2.nodup, ?_⟩
  intro i
  constructor
  · intro hi
    refine ⟨h2.optSub i hi, ?_⟩
    intro j hj hl
    rw [h2.max i hi j hj] at hl; cases hl
  · rintro ⟨hi, hmax⟩
    rcases h2.cover i hi with hF | ho | ⟨y, hy, hl⟩
    · exact hF.elim
    · exact ho
    · rcases hy with hy | hy
      · exact hy.elim
      · exact absurd hl (hmax y (h2.optSub y hy))

end Best

/-! ### Rows of a matrix -/

section Rows
variable {K : Type} [CommRing K] [LinearOrder K] [IsStrictOrderedRing K]

omit [CommRing K] [LinearOrder K] [IsStrictOrderedRing K] in
theorem row_length {m : Nat} {fmat : FMat K} (hm : IsMatrix m fmat) {i : Nat} (hi : i < fmat.length) :
    (fmat.getD i []).length = m := by
  rw [List.getD, List.getElem?_eq_getElem hi]
  exact hm _ (List.getElem_mem hi)

/-- Row `i` of `fmat` is exactly dominated by row `j`. -/
def rowDom (fmat : FMat K) (j i : Nat) : Prop := ExactDominates (fmat.getD j []) (fmat.getD i [])

theorem rowLess_zero (fmat : FMat K) (i j : Nat) :
    rowLess (⟨0, 0⟩ : Tol K) fmat i j = true ↔ rowDom fmat j i := paretoCompareLess_zero _ _

theorem rowSPO {m : Nat} {fmat : FMat K} (hm : IsMatrix m fmat) :
    SPO fmat.length (rowLess (⟨0, 0⟩ : Tol K) fmat) := by
  refine ⟨?_, ?_⟩
  · intro i _
    rw [← Bool.not_eq_true, rowLess_zero]; exact exactDominates_irrefl _
  · intro i j k hi hj hk h1 h2
    rw [rowLess_zero] at *
    exact exactDominates_trans (by rw [row_length hm hi, row_length hm hj])
      (by rw [row_length hm hj, row_length hm hk]) h1 h2

theorem rowCmp_zero (fmat : FMat K) (i j : Nat) :
    (rowCmp (⟨0, 0⟩ : Tol K) fmat i j > 0 ↔ rowLess (⟨0, 0⟩ : Tol K) fmat j i = true) ∧
    (rowCmp (⟨0, 0⟩ : Tol K) fmat i j < 0 ↔ rowLess (⟨0, 0⟩ : Tol K) fmat i j = true) := by
  have := paretoCompare_spec (t := (⟨0, 0⟩ : Tol K)) ⟨le_rfl, le_rfl⟩ (fmat.getD i []) (fmat.getD j [])
  rw [rowLess_zero, rowLess_zero, rowDom, rowDom, ← dominates_zero, ← dominates_zero]
  exact ⟨this.2.1, this.1⟩

omit [CommRing K] [IsStrictOrderedRing K] in
theorem lexGreater_of_dominates : ∀ (b a : FVec K), a.length = b.length → ExactDominates b a →
    lexGreater b a = true
  | [], [], _, h => by obtain ⟨i, hi, _⟩ := h.2; simp at hi
  | [], _ :: _, h, _ => by simp at h
  | _ :: _, [], h, _ => by simp at h
  | b :: bs, a :: as, hl, h => by
      have h0 := h.1 0 (by simp) (by simp)
      simp only [List.getElem_cons_zero] at h0
      simp only [lexGreater]
      split
      · rename_i hne
        exact decide_eq_true (lt_of_le_of_ne h0 (Ne.symm hne))
      · rename_i he
        have he : b = a := not_not.1 he
        subst he
        refine lexGreater_of_dominates bs as (by simpa using hl) ⟨?_, ?_⟩
        · intro i ha hb
          have := h.1 (i + 1) (by simpa using ha) (by simpa using hb)
          simpa using this
        · obtain ⟨i, ha, hb, hlt⟩ := h.2
          cases i with
          | zero => simp at hlt
          | succ i => exact ⟨i, by simpa using ha, by simpa using hb, by simpa using hlt⟩

theorem topoSorted_of_argsort {m : Nat} {fmat : FMat K} (hm : IsMatrix m fmat) {indices : List Nat}
    (hs : IsArgsort (rowLexLess fmat) fmat.length indices) :
    TopoSorted (rowLess (⟨0, 0⟩ : Tol K) fmat) indices := by
  have hmem : ∀ x ∈ indices, x < fmat.length := fun x hx => by simpa using hs.1.mem_iff.1 hx
  refine List.Pairwise.imp_of_mem ?_ hs.2
  intro a b ha hb h
  rw [← Bool.not_eq_true, rowLess_zero]
  intro hd
  have := lexGreater_of_dominates _ _ (by rw [row_length hm (hmem a ha), row_length hm (hmem b hb)]) hd
  rw [rowLexLess, this] at h; cases h

theorem front_of_filter {less : Nat → Nat → Bool} {n : Nat} {l : List Nat} (hl : l.Perm (List.range n)) :
    IsParetoFront (fun j i => less i j = true) n (l.filter (nd less l)) := by
  refine ⟨(hl.nodup_iff.2 List.nodup_range).filter _, ?_⟩
  intro i
  rw [List.mem_filter, nd_iff, hl.mem_iff, List.mem_range]
  refine and_congr Iff.rfl ⟨?_, ?_⟩
  · intro h j hj hl'
    rw [h j (hl.mem_iff.2 (List.mem_range.2 hj))] at hl'; cases hl'
  · intro h z hz
    rw [← Bool.not_eq_true]
    exact h z (by simpa using hl.mem_iff.1 hz)

/-! One objective -/

omit [CommRing K] [IsStrictOrderedRing K] in
theorem maxElementLoop_spec (best : Flt K) (xs : List (Flt K)) :
    maxElementLoop best xs ∈ best :: xs ∧ ∀ x ∈ best :: xs, x ≤ maxElementLoop best xs := by
  induction xs generalizing best with
  | nil => simp [maxElementLoop]
  | cons y ys ih =>
    simp only [maxElementLoop]
    have := ih (if best < y then y else best)
    refine ⟨?_, ?_⟩
    · have h1 := this.1
      split at h1 <;> rename_i hlt
      · rw [if_pos hlt]
        exact List.mem_cons_of_mem _ h1
      · rw [if_neg hlt]
        rcases List.mem_cons.1 h1 with h | h
        · rw [h]; simp
        · simp [h]
    · intro x hx
      have hb := this.2 _ (List.mem_cons_self)
      rcases List.mem_cons.1 hx with rfl | hx
      · refine le_trans ?_ hb
        split
        · rename_i hlt; exact hlt.le
        · exact le_rfl
      · rcases List.mem_cons.1 hx with rfl | hx
        · refine le_trans ?_ hb
          split
          · exact le_rfl
          · rename_i hlt; exact not_lt.1 hlt
        · exact this.2 x (List.mem_cons_of_mem _ hx)

omit [CommRing K] [LinearOrder K] [IsStrictOrderedRing K] in
theorem mapM_head_eq {fmat : FMat K} (hm : IsMatrix 1 fmat) :
    ∃ col : List (Flt K), fmat.mapM List.head? = some col ∧ fmat = col.map (fun x => [x]) := by
  induction fmat with
  | nil => exact ⟨[], rfl, rfl⟩
  | cons r rs ih =>
    obtain ⟨col, h1, h2⟩ := ih (fun x hx => hm x (List.mem_cons_of_mem _ hx))
    have hr : r.length = 1 := hm r (List.mem_cons_self)
    match r, hr with
    | [x], _ => exact ⟨x :: col, by simp [List.mapM_cons, h1], by simp [h2]⟩

theorem findParetoFront1D_spec {t : Tol K} (ht : t.Valid) (hr : t.rel ≤ 1) {fmat : FMat K}
    (hm : IsMatrix 1 fmat) (hne : fmat ≠ []) :
    ∃ res, findParetoFront1D t fmat = some res ∧
      IsParetoFront (fun j i => Dominates t (fmat.getD j []) (fmat.getD i [])) fmat.length res := by
  obtain ⟨col, h1, h2⟩ := mapM_head_eq hm
  have hlen : fmat.length = col.length := by rw [h2]; simp
  cases hcol : col with
  | nil => subst hcol; simp at h2; exact absurd h2 hne
  | cons x xs =>
  obtain ⟨m1, m2⟩ := maxElementLoop_spec x xs
  refine ⟨_, by rw [findParetoFront1D, h1]; simp only [Option.bind_eq_bind, Option.bind_some, hcol,
    List.head?_cons, List.tail_cons]; rfl, ?_⟩
  have hrow : ∀ i (hi : i < col.length), fmat.getD i [] = [col[i]] := by
    intro i hi
    rw [h2, List.getD, List.getElem?_map, List.getElem?_eq_getElem hi]; rfl
  have hdom : ∀ i j (hi : i < col.length) (hj : j < col.length),
      (Dominates t (fmat.getD j []) (fmat.getD i []) ↔ DefinitelyLess t col[i] col[j]) := by
    intro i j hi hj
    rw [hrow i hi, hrow j hj, Dominates]
    constructor
    · rintro ⟨-, k, hk, _, hl⟩
      simp only [List.length_singleton, Nat.lt_one_iff] at hk
      subst hk; simpa using hl
    · intro hl
      refine ⟨?_, 0, by simp, by simp, by simpa using hl⟩
      intro k hk _
      simp only [List.length_singleton, Nat.lt_one_iff] at hk
      subst hk
      intro hl'
      exact absurd (definitelyLess_lt ht hl) (not_lt_of_gt (definitelyLess_lt ht (by simpa using hl')))
  refine ⟨List.nodup_range.filter _, ?_⟩
  intro i
  rw [List.mem_filter, List.mem_range, hlen]
  refine and_congr_right fun hi => ?_
  have hci : (x :: xs)[i]? = some col[i] := by rw [← hcol]; exact List.getElem?_eq_getElem hi
  rw [hci]
  simp only []
  rw [floatIsEqual_iff, ← Bool.not_eq_true, ← Bool.not_eq_true, isLess_iff ht, isLess_iff ht]
  have hmem : col[i] ∈ x :: xs := hcol ▸ List.getElem_mem hi
  constructor
  · rintro ⟨-, hn⟩ j hj hd
    rw [hdom i j hi hj] at hd
    exact hn (definitelyLess_mono ht hr hd le_rfl (m2 _ (hcol ▸ List.getElem_mem hj)))
  · intro hall
    refine ⟨?_, ?_⟩
    · intro hd
      exact absurd (definitelyLess_lt ht hd) (not_lt_of_ge (m2 _ hmem))
    · intro hd
      rw [← hcol] at m1
      obtain ⟨j, hj, he⟩ := List.getElem_of_mem m1
      exact hall j hj ((hdom i j hi hj).2 (by rw [he]; exact hd))

/-! Nadir points -/

omit [CommRing K] [LinearOrder K] [IsStrictOrderedRing K] in
theorem select_rows {fmat : FMat K} {l : List Nat} (hl : ∀ i ∈ l, i < fmat.length) :
    ∃ rows : List (FVec K), l.mapM (fun i => fmat[i]?) = some rows ∧
      rows = l.map (fun i => fmat.getD i []) := by
  refine ⟨_, ?_, rfl⟩
  refine ListAux.mapM_eq_some_of_forall _ _ _ (by simp) ?_
  intro i hi hi'
  have := hl l[i] (List.getElem_mem hi)
  simp [List.getD, this]

omit [CommRing K] [IsStrictOrderedRing K] in
theorem foldl_elementwiseMin_spec (m : Nat) (q : FVec K) (qs : List (FVec K)) (hq : q.length = m)
    (hqs : ∀ r ∈ qs, r.length = m) :
    (qs.foldl elementwiseMin q).length = m ∧
    ∀ k (hk : k < (qs.foldl elementwiseMin q).length),
      (∀ r ∈ q :: qs, ∀ x, r[k]? = some x → (qs.foldl elementwiseMin q)[k] ≤ x) ∧
      (∃ r ∈ q :: qs, r[k]? = some (qs.foldl elementwiseMin q)[k]) := by
  induction qs generalizing q with
  | nil =>
    refine ⟨hq, ?_⟩
    intro k hk
    simp only [List.foldl_nil] at hk
    refine ⟨?_, q, by simp, by simp⟩
    intro r hr x hx
    simp only [List.mem_singleton] at hr
    subst hr
    rw [List.getElem?_eq_getElem hk] at hx
    cases hx; exact le_rfl
  | cons r rs ih =>
    have hr : r.length = m := hqs r (by simp)
    have hmin : (elementwiseMin q r).length = m := by simp [elementwiseMin, hq, hr]
    obtain ⟨h1, h2⟩ := ih (elementwiseMin q r) hmin (fun s hs => hqs s (List.mem_cons_of_mem _ hs))
    refine ⟨h1, ?_⟩
    intro k hk
    have hkm : k < m := by simp only [List.foldl_cons] at hk; omega
    have hg : (elementwiseMin q r)[k]? = some (min (q[k]'(by omega)) (r[k]'(by omega))) := by
      have e1 : q[k]? = some (q[k]'(by omega)) := List.getElem?_eq_getElem (by omega)
      have e2 : r[k]? = some (r[k]'(by omega)) := List.getElem?_eq_getElem (by omega)
      rw [elementwiseMin, List.getElem?_zipWith, e1, e2]
    obtain ⟨h3, h4⟩ := h2 k hk
    have hmn := h3 _ (List.mem_cons_self) _ hg
    refine ⟨?_, ?_⟩
    · intro s hs x hx
      rcases List.mem_cons.1 hs with rfl | hs
      · rw [List.getElem?_eq_getElem (by omega)] at hx; cases hx
        exact le_trans hmn (min_le_left _ _)
      · rcases List.mem_cons.1 hs with rfl | hs
        · rw [List.getElem?_eq_getElem (by omega)] at hx; cases hx
          exact le_trans hmn (min_le_right _ _)
        · exact h3 s (List.mem_cons_of_mem _ hs) x hx
    · obtain ⟨s, hs, hx⟩ := h4
      rcases List.mem_cons.1 hs with rfl | hs
      · rw [hg] at hx
        simp only [List.foldl_cons]
        rcases min_choice (q[k]'(by omega)) (r[k]'(by omega)) with hc | hc
        · refine ⟨q, by simp, ?_⟩
          rw [List.getElem?_eq_getElem (by omega), ← hc]; exact hx
        · refine ⟨r, by simp, ?_⟩
          rw [List.getElem?_eq_getElem (by omega), ← hc]; exact hx
      · exact ⟨s, by simp [hs], hx⟩

end Rows

end Gapp.Model
