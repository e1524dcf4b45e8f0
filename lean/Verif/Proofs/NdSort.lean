import Verif.Model.NdSort
import Verif.Spec.NdSort
import Verif.Proofs.ParetoFront
import Mathlib.Data.List.Nodup
import Mathlib.Data.List.TakeWhile
import Mathlib.Data.List.Perm.Subperm
/-! Proofs about non-dominated sorting. -/

namespace Gapp.Model
open Gapp.Spec

section Local
variable {dom : Nat → Nat → Prop} {n : Nat} {res : List (Nat × Nat)}

theorem rank_unique (hn : (res.map (·.1)).Nodup) {i r s : Nat} (h1 : (i, r) ∈ res) (h2 : (i, s) ∈ res) : r = s := by
  obtain ⟨a, ha, ea⟩ := List.getElem_of_mem h1
  obtain ⟨b, hb, eb⟩ := List.getElem_of_mem h2
  have : a = b := by
    refine (List.getElem_inj (h₀ := by simpa using ha) (h₁ := by simpa using hb) hn).1 ?_
    simp [ea, eb]
  subst this
  rw [ea] at eb
  exact (Prod.mk.inj eb).2

/-- A list of ranks that is locally right is the non-dominated sorting. -/
theorem isNdSort_of_local (hp : (res.map (·.1)).Perm (List.range n))
    (hs : res.Pairwise (fun a b => a.2 ≤ b.2))
    (ha : ∀ i r j s, (i, r) ∈ res → (j, s) ∈ res → dom j i → s < r)
    (hb : ∀ i r, (i, r + 1) ∈ res → ∃ j, (j, r) ∈ res ∧ dom j i) : IsNdSort dom n res := by
  have hn : (res.map (·.1)).Nodup := hp.nodup_iff.2 List.nodup_range
  have hrem : ∀ k i, Remaining dom n k i ↔ ∃ r, (i, r) ∈ res ∧ k ≤ r := by
    intro k
    induction k with
    | zero =>
      intro i
      rw [Remaining, ← List.mem_range, ← hp.mem_iff, List.mem_map]
      constructor
      · rintro ⟨⟨a, r⟩, h, rfl⟩; exact ⟨r, h, by omega⟩
      · rintro ⟨r, h, _⟩; exact ⟨_, h, rfl⟩
    | succ k ih =>
      intro i
      rw [Remaining, ih]
      constructor
      · rintro ⟨⟨r, hr, hk⟩, j, hj, hd⟩
        obtain ⟨s, hs, hks⟩ := (ih j).1 hj
        exact ⟨r, hr, by have := ha i r j s hr hs hd; omega⟩
      · rintro ⟨r, hr, hk⟩
        refine ⟨⟨r, hr, by omega⟩, ?_⟩
        obtain ⟨r, rfl⟩ : ∃ r', r = r' + 1 := ⟨r - 1, by omega⟩
        obtain ⟨j, hj, hd⟩ := hb i r hr
        exact ⟨j, (ih j).2 ⟨r, hj, by omega⟩, hd⟩
  refine ⟨hp, hs, ?_⟩
  intro i r hr
  refine ⟨(hrem r i).2 ⟨r, hr, Nat.le_refl _⟩, ?_⟩
  intro h
  obtain ⟨s, hs, hlt⟩ := (hrem _ i).1 h
  have := rank_unique hn hr hs
  omega

end Local

/-! ### ENS -/

section Ens
variable {n : Nat} {less : Nat → Nat → Bool}

theorem ensPlace_spec (idx : Nat) : ∀ (fuel rank : Nat) (suffix : List (Nat × Nat)),
    suffix.length < fuel → suffix.Pairwise (fun a b => a.2 ≤ b.2) → (∀ e ∈ suffix, rank ≤ e.2) →
    ∃ A B r, suffix = A ++ B ∧ ensPlace less idx fuel rank suffix = some (A ++ (idx, r) :: B) ∧ rank ≤ r ∧
      (∀ e ∈ A, e.2 < r) ∧ (∀ e ∈ B, r ≤ e.2) ∧ (∀ e ∈ B, e.2 = r → less idx e.1 = false) ∧
      (r = rank ∨ ∃ e ∈ A, e.2 + 1 = r ∧ less idx e.1 = true) := by
  intro fuel
  induction fuel with
  | zero => intro rank suffix h; omega
  | succ fuel ih =>
    intro rank suffix hf hs hr
    rw [ensPlace]
    split
    · rename_i he
      subst he
      exact ⟨[], [], rank, rfl, rfl, Nat.le_refl _, by simp, by simp, by simp, Or.inl rfl⟩
    · rename_i hne
      dsimp only
      have hsplit := List.takeWhile_append_dropWhile (p := fun e : Nat × Nat => e.2 == rank) (l := suffix)
      have htw : ∀ e ∈ suffix.takeWhile (fun e => e.2 == rank), e.2 = rank := by
        intro e he
        have := List.mem_takeWhile_imp he
        simpa using this
      have hdw : ∀ e ∈ suffix.dropWhile (fun e => e.2 == rank), rank < e.2 := by
        cases hd : suffix.dropWhile (fun e => e.2 == rank) with
        | nil => simp
        | cons x l =>
          have hx : x.2 ≠ rank := by
            have := List.head_dropWhile_not (p := fun e : Nat × Nat => e.2 == rank) (l := suffix) (by rw [hd]; simp)
            simp only [hd, List.head_cons] at this
            simpa using this
          rw [← hsplit, hd] at hs hr
          have hxr : rank < x.2 := by
            have := hr x (by simp)
            omega
          intro e he
          rcases List.mem_cons.1 he with rfl | he
          · exact hxr
          · have := (List.pairwise_append.1 hs).2.1
            have := (List.pairwise_cons.1 this).1 e he
            omega
      split
      · rename_i hany
        obtain ⟨e, he, hl⟩ := List.any_eq_true.1 hany
        have hlen : 0 < (suffix.takeWhile (fun e => e.2 == rank)).length := List.length_pos_of_mem he
        have hlen2 := congrArg List.length hsplit
        rw [List.length_append] at hlen2
        obtain ⟨A, B, r, h1, h2, h3, h4, h5, h6, h7⟩ := ih (rank + 1) (suffix.dropWhile (fun e => e.2 == rank))
          (by omega) (by rw [← hsplit] at hs; exact (List.pairwise_append.1 hs).2.1) hdw
        refine ⟨suffix.takeWhile (fun e => e.2 == rank) ++ A, B, r, ?_, ?_, by omega, ?_, h5, h6, Or.inr ?_⟩
        · rw [List.append_assoc, ← h1, hsplit]
        · rw [h2]; simp
        · intro e he
          rcases List.mem_append.1 he with he | he
          · rw [htw e he]; omega
          · exact h4 e he
        · rcases h7 with h7 | ⟨e', he', h7⟩
          · exact ⟨e, List.mem_append_left _ he, by rw [htw e he, h7], hl⟩
          · exact ⟨e', List.mem_append_right _ he', h7⟩
      · rename_i hany
        refine ⟨[], suffix, rank, rfl, rfl, Nat.le_refl _, by simp, hr, ?_, Or.inl rfl⟩
        intro e he hrk
        rw [← hsplit] at he
        rcases List.mem_append.1 he with he | he
        · rw [← Bool.not_eq_true]
          intro hl
          exact hany (List.any_eq_true.2 ⟨e, he, hl⟩)
        · have := hdw e he; omega

/-- The invariant of a list of ranked indices. -/
structure RankInv (n : Nat) (less : Nat → Nat → Bool) (pf : List (Nat × Nat)) : Prop where
  lt : ∀ i r, (i, r) ∈ pf → i < n
  nodup : (pf.map (·.1)).Nodup
  sorted : pf.Pairwise (fun a b => a.2 ≤ b.2)
  a : ∀ i r j s, (i, r) ∈ pf → (j, s) ∈ pf → less i j = true → s < r
  b : ∀ i r, (i, r + 1) ∈ pf → ∃ j, (j, r) ∈ pf ∧ less i j = true

theorem RankInv.descend (h : SPO n less) {pf : List (Nat × Nat)} (hi : RankInv n less pf) (r : Nat) :
    ∀ (d i : Nat), (i, r + d) ∈ pf → ∃ j, (j, r) ∈ pf ∧ (j = i ∨ less i j = true) := by
  intro d
  induction d with
  | zero => intro i hm; exact ⟨i, hm, Or.inl rfl⟩
  | succ d ih =>
    intro i hm
    obtain ⟨j, hj, hl⟩ := hi.b i (r + d) hm
    obtain ⟨k, hk, hkj⟩ := ih j hj
    refine ⟨k, hk, Or.inr ?_⟩
    rcases hkj with rfl | hkj
    · exact hl
    · exact h.trans i j k (hi.lt _ _ hm) (hi.lt _ _ hj) (hi.lt _ _ hk) hl hkj

theorem ensPlace_inv (h : SPO n less) {pf : List (Nat × Nat)} (hi : RankInv n less pf) (idx : Nat) (hidx : idx < n)
    (hnew : ∀ r, (idx, r) ∉ pf) (htopo : ∀ i r, (i, r) ∈ pf → less i idx = false) :
    ∃ pf', ensPlace less idx (pf.length + 1) 0 pf = some pf' ∧ RankInv n less pf' ∧
      (pf'.map (·.1)).Perm (idx :: pf.map (·.1)) := by
  obtain ⟨A, B, r, h1, h2, -, h4, h5, h6, h7⟩ := ensPlace_spec (less := less) idx (pf.length + 1) 0 pf (by omega)
    hi.sorted (by simp)
  have hperm : ((A ++ (idx, r) :: B).map (·.1)).Perm (idx :: pf.map (·.1)) := by
    rw [h1]
    exact (List.perm_middle (a := (idx, r)) (l₁ := A) (l₂ := B)).map _
  have hmem : ∀ i s, (i, s) ∈ A ++ (idx, r) :: B ↔ (i, s) ∈ pf ∨ (i = idx ∧ s = r) := by
    intro i s
    rw [h1]
    simp only [List.mem_append, List.mem_cons, Prod.mk.injEq]
    tauto
  have hupper : ∀ j s, (j, s) ∈ pf → less idx j = true → s < r := by
    intro j s hj hl
    rw [h1] at hj
    rcases List.mem_append.1 hj with hj' | hj'
    · exact h4 _ hj'
    · exfalso
      have hge := h5 _ hj'
      obtain ⟨d, rfl⟩ : ∃ d, s = r + d := ⟨s - r, by simp at hge; omega⟩
      rw [← h1] at hj
      obtain ⟨k, hk, hkj⟩ := hi.descend h r d j hj
      have hlk : less idx k = true := by
        rcases hkj with rfl | hkj
        · exact hl
        · exact h.trans _ _ _ hidx (hi.lt _ _ hj) (hi.lt _ _ hk) hl hkj
      rw [h1] at hk
      rcases List.mem_append.1 hk with hk' | hk'
      · have := h4 _ hk'; simp at this
      · have := h6 _ hk' rfl
        rw [hlk] at this; cases this
  refine ⟨_, h2, ⟨?_, ?_, ?_, ?_, ?_⟩, hperm⟩
  · intro i s hm
    rcases (hmem i s).1 hm with hm | ⟨rfl, _⟩
    · exact hi.lt _ _ hm
    · exact hidx
  · rw [hperm.nodup_iff, List.nodup_cons]
    refine ⟨?_, hi.nodup⟩
    intro hm
    obtain ⟨⟨a, s⟩, hm', rfl⟩ := List.mem_map.1 hm
    exact hnew s hm'
  · have hs := hi.sorted
    rw [h1] at hs
    obtain ⟨s1, s2, s3⟩ := List.pairwise_append.1 hs
    refine List.pairwise_append.2 ⟨s1, List.pairwise_cons.2 ⟨h5, s2⟩, ?_⟩
    intro a ha b hb
    rcases List.mem_cons.1 hb with rfl | hb
    · exact Nat.le_of_lt (h4 a ha)
    · exact s3 a ha b hb
  · intro i s j s' hm1 hm2 hl
    rcases (hmem i s).1 hm1 with hm1' | ⟨e1, e1'⟩ <;> rcases (hmem j s').1 hm2 with hm2' | ⟨e2, e2'⟩
    · exact hi.a i s j s' hm1' hm2' hl
    · rw [e2, htopo _ _ hm1'] at hl; cases hl
    · rw [e1] at hl; rw [e1']; exact hupper _ _ hm2' hl
    · rw [e1, e2, h.irrefl _ hidx] at hl; cases hl
  · intro i s hm
    rcases (hmem i (s + 1)).1 hm with hm | ⟨rfl, hr⟩
    · obtain ⟨j, hj, hl⟩ := hi.b i s hm
      exact ⟨j, (hmem _ _).2 (Or.inl hj), hl⟩
    · rcases h7 with h7 | ⟨⟨e, q⟩, he, h7, hl⟩
      · omega
      · dsimp only at h7 hl
        have : q = s := by omega
        subst this
        exact ⟨e, (hmem _ _).2 (Or.inl (by rw [h1]; exact List.mem_append_left _ he)), hl⟩

theorem ensLoop_spec (h : SPO n less) : ∀ (l : List Nat) (pf : List (Nat × Nat)), RankInv n less pf →
    TopoSorted less l → l.Nodup → (∀ x ∈ l, x < n) → (∀ x ∈ l, ∀ r, (x, r) ∉ pf) →
    (∀ x ∈ l, ∀ i r, (i, r) ∈ pf → less i x = false) →
    ∃ res, ensLoop less l pf = some res ∧ RankInv n less res ∧ (res.map (·.1)).Perm (l ++ pf.map (·.1)) := by
  intro l
  induction l with
  | nil => intro pf hi _ _ _ _ _; exact ⟨pf, rfl, hi, by simp⟩
  | cons x l ih =>
    intro pf hi hs hn hlt hnew htopo
    obtain ⟨pf', h1, h2, h3⟩ := ensPlace_inv h hi x (hlt x (by simp)) (hnew x (by simp)) (htopo x (by simp))
    have hs' := List.pairwise_cons.1 hs
    have hn' := List.nodup_cons.1 hn
    have hmem : ∀ i r, (i, r) ∈ pf' → i = x ∨ ∃ s, (i, s) ∈ pf := by
      intro i r hm
      have : i ∈ x :: pf.map (·.1) := h3.mem_iff.1 (List.mem_map.2 ⟨_, hm, rfl⟩)
      rcases List.mem_cons.1 this with e | e
      · exact Or.inl e
      · obtain ⟨⟨a, s⟩, hm', rfl⟩ := List.mem_map.1 e
        exact Or.inr ⟨s, hm'⟩
    obtain ⟨res, r1, r2, r3⟩ := ih pf' h2 hs'.2 hn'.2 (fun y hy => hlt y (by simp [hy]))
      (by
        intro y hy r hm
        rcases hmem y r hm with e | ⟨s, e⟩
        · subst e; exact hn'.1 hy
        · exact hnew y (by simp [hy]) s e)
      (by
        intro y hy i r hm
        rcases hmem i r hm with e | ⟨s, e⟩
        · subst e; exact hs'.1 y hy
        · exact htopo y (by simp [hy]) i s e)
    refine ⟨res, by rw [ensLoop, h1]; exact r1, r2, r3.trans ?_⟩
    exact (h3.append_left l).trans (List.perm_middle)

theorem RankInv.isNdSort {pf : List (Nat × Nat)} (hi : RankInv n less pf) (hp : (pf.map (·.1)).Perm (List.range n)) :
    IsNdSort (fun j i => less i j = true) n pf :=
  isNdSort_of_local hp hi.sorted hi.a hi.b

theorem ens_isNdSort (h : SPO n less) (l : List Nat) (hs : TopoSorted less l) (hp : l.Perm (List.range n)) :
    ∃ res, ensLoop less l [] = some res ∧ IsNdSort (fun j i => less i j = true) n res := by
  obtain ⟨res, h1, h2, h3⟩ := ensLoop_spec h l [] ⟨by simp, by simp, by simp, by simp, by simp⟩ hs
    (hp.nodup_iff.2 List.nodup_range) (fun x hx => by simpa using hp.mem_iff.1 hx) (by simp) (by simp)
  refine ⟨res, h1, h2.isNdSort ?_⟩
  simpa using h3.trans (by simpa using hp)

end Ens

/-! ### Counting -/

theorem countP_remove {l : List Nat} (hl : l.Nodup) {x : Nat} (hx : x ∈ l) (p : Nat → Bool) (S : List Nat)
    (hxS : x ∉ S) :
    l.countP (fun j => p j && !S.contains j) =
      l.countP (fun j => p j && !(x :: S).contains j) + (if p x then 1 else 0) := by
  induction l with
  | nil => simp at hx
  | cons a l ih =>
    rw [List.nodup_cons] at hl
    rw [List.countP_cons, List.countP_cons]
    by_cases hxa : x = a
    · subst hxa
      have : l.countP (fun j => p j && !S.contains j) = l.countP (fun j => p j && !(x :: S).contains j) := by
        apply List.countP_congr
        intro j hj
        have hjx : j ≠ x := fun e => hl.1 (e ▸ hj)
        simp [hjx]
      rw [this]
      have h1 : S.contains x = false := by simpa using hxS
      have h2 : (x :: S).contains x = true := by simp
      rw [h1, h2]
      simp
    · have hxl : x ∈ l := by
        rcases List.mem_cons.1 hx with e | e
        · exact absurd e hxa
        · exact e
      rw [ih hl.2 hxl]
      have : (x :: S).contains a = S.contains a := by
        have : a ≠ x := fun e => hxa e.symm
        simp [this]
      rw [this]; omega

theorem countP_eq_zero' {l S : List Nat} {p : Nat → Bool} :
    l.countP (fun j => p j && !S.contains j) = 0 ↔ ∀ j ∈ l, p j = true → j ∈ S := by
  rw [List.countP_eq_zero]
  simp only [Bool.and_eq_true, Bool.not_eq_true', List.contains_eq_mem, decide_eq_false_iff_not, not_and, not_not]

/-! ### FNDS -/

section Fnds
variable {n : Nat} {less : Nat → Nat → Bool}

theorem fupd_same {β : Type} (f : Nat → β) (i : Nat) (v : β) : fupd f i v i = v := by simp [fupd]
theorem fupd_ne {β : Type} (f : Nat → β) {i k : Nat} (v : β) (h : k ≠ i) : fupd f i v k = f k := by
  simp [fupd, h]

theorem domLists_inner (h : SPO n less) {cmp : Nat → Nat → Int}
    (hc1 : ∀ i j, i < n → j < n → (cmp i j > 0 ↔ less j i = true))
    (hc2 : ∀ i j, i < n → j < n → (cmp i j < 0 ↔ less i j = true))
    (N : Nat) (hN : N < n) (d : DomLists) (hb0 : d.better N = 0) (hw0 : d.worse N = []) (M : Nat) (hM : M ≤ N) :
    ∀ i, (((List.range M).foldl (domListsBody cmp N) d).better i =
        if i < M then d.better i + (if less i N then 1 else 0)
        else if i = N then ((List.range M).countP (less N) : Int) else d.better i) ∧
      (((List.range M).foldl (domListsBody cmp N) d).worse i =
        if i < M then d.worse i ++ (if less N i then [N] else [])
        else if i = N then (List.range M).filter (fun w => less w N) else d.worse i) := by
  induction M with
  | zero =>
    intro i
    simp only [List.range_zero, List.foldl_nil, Nat.not_lt_zero, if_false, List.countP_nil, List.filter_nil]
    refine ⟨?_, ?_⟩ <;> split
    · rename_i e; subst e; simpa using hb0
    · rfl
    · rename_i e; subst e; exact hw0
    · rfl
  | succ M ih =>
    have ih := ih (by omega)
    rw [List.range_succ, List.foldl_append, List.foldl_cons, List.foldl_nil]
    generalize (List.range M).foldl (domListsBody cmp N) d = e at *
    have hMn : M < n := by omega
    have c1 := hc1 N M hN hMn
    have c2 := hc2 N M hN hMn
    have hexcl : less N M = true → less M N = false := fun hh => h.asymm hN hMn hh
    have ihN := ih N
    have ihM := ih M
    simp only [show ¬ N < M by omega, if_false, if_true] at ihN
    simp only [show ¬ M < M by omega, show M ≠ N by omega, if_false] at ihM
    intro i
    rw [List.countP_append, List.filter_append]
    simp only [List.countP_cons, List.countP_nil, List.filter_cons, List.filter_nil]
    unfold domListsBody
    have key : ∀ i, i < M + 1 ↔ i < M ∨ i = M := by omega
    split
    · rename_i hlt
      have hl := c2.1 hlt
      have hl' := hexcl hl
      simp only [hl, hl', if_true, Bool.false_eq_true, if_false, Nat.zero_add, List.append_nil]
      constructor
      · by_cases hiN : i = N
        · subst hiN
          rw [fupd_same, if_neg (by omega), if_pos rfl, ihN.1]; simp
        · rw [fupd_ne _ _ hiN, (ih i).1]
          by_cases hiM : i = M
          · subst hiM
            rw [if_neg (by omega), if_neg hiN, if_pos (by omega)]
            simp [hl']
          · simp only [key, hiM, or_false, hiN, if_false]
      · by_cases hiM : i = M
        · subst hiM
          rw [fupd_same, if_pos (by omega), ihM.2, if_pos hl]
        · rw [fupd_ne _ _ hiM, (ih i).2]
          simp only [key, hiM, or_false]
    · rename_i hnlt
      have hl : less N M = false := by rw [← Bool.not_eq_true, ← c2]; exact hnlt
      split
      · rename_i hgt
        have hl' := c1.1 hgt
        simp only [hl, hl', if_true, Bool.false_eq_true, if_false, Nat.add_zero]
        constructor
        · by_cases hiM : i = M
          · subst hiM
            rw [fupd_same, if_pos (by omega), ihM.1, if_pos hl']
          · rw [fupd_ne _ _ hiM, (ih i).1]
            simp only [key, hiM, or_false]
        · by_cases hiN : i = N
          · subst hiN
            rw [fupd_same, if_neg (by omega), if_pos rfl, ihN.2]
          · rw [fupd_ne _ _ hiN, (ih i).2]
            by_cases hiM : i = M
            · subst hiM
              rw [if_neg (by omega), if_neg hiN, if_pos (by omega)]
              simp [hl]
            · simp only [key, hiM, or_false, hiN, if_false]
      · rename_i hngt
        have hl' : less M N = false := by rw [← Bool.not_eq_true, ← c1]; exact hngt
        simp only [hl, hl', Bool.false_eq_true, if_false, Nat.add_zero, List.append_nil]
        have := ih i
        by_cases hiM : i = M
        · subst hiM
          simp only [show ¬ i < i by omega, show i ≠ N by omega, if_false] at this
          simp only [show i < i + 1 by omega, if_true, hl, hl', Bool.false_eq_true, if_false, Int.add_zero,
            List.append_nil]
          exact this
        · simp only [key, hiM, or_false]; exact this

theorem domLists_outer (h : SPO n less) {cmp : Nat → Nat → Int}
    (hc1 : ∀ i j, i < n → j < n → (cmp i j > 0 ↔ less j i = true))
    (hc2 : ∀ i j, i < n → j < n → (cmp i j < 0 ↔ less i j = true)) (N : Nat) (hN : N ≤ n) :
    ∀ i, (((List.range N).foldl (fun d lhs => (List.range lhs).foldl (domListsBody cmp lhs) d)
        { worse := fun _ => [], better := fun _ => 0 }).better i =
          if i < N then ((List.range N).countP (less i) : Int) else 0) ∧
      (((List.range N).foldl (fun d lhs => (List.range lhs).foldl (domListsBody cmp lhs) d)
        { worse := fun _ => [], better := fun _ => 0 }).worse i =
          if i < N then (List.range N).filter (fun w => less w i) else []) := by
  induction N with
  | zero => intro i; simp
  | succ N ih =>
    have ih := ih (by omega)
    rw [List.range_succ, List.foldl_append, List.foldl_cons, List.foldl_nil]
    generalize (List.range N).foldl (fun d lhs => (List.range lhs).foldl (domListsBody cmp lhs) d)
        { worse := fun _ => [], better := fun _ => 0 } = d at *
    intro i
    have hN0 := ih N
    simp only [Nat.lt_irrefl, if_false] at hN0
    have hi := domLists_inner h hc1 hc2 N (by omega) d hN0.1 hN0.2 N (Nat.le_refl _) i
    rw [hi.1, hi.2, (ih i).1, (ih i).2]
    rw [List.countP_append, List.filter_append]
    simp only [List.countP_cons, List.countP_nil, List.filter_cons, List.filter_nil]
    by_cases hiN : i = N
    · subst hiN
      simp [h.irrefl i (by omega)]
    · by_cases hlt : i < N
      · simp only [hlt, if_true, show i < N + 1 by omega]
        exact ⟨by push_cast; split <;> simp, trivial⟩
      · simp only [hlt, if_false, hiN, show ¬ i < N + 1 by omega]
        exact ⟨trivial, trivial⟩

theorem fndsRelease_eq (rank : Nat) : ∀ (ws : List Nat), ws.Nodup → ∀ (better : Nat → Int) (pf : List (Nat × Nat)),
    (∀ i, (fndsRelease rank ws (better, pf)).1 i = better i - (if i ∈ ws then 1 else 0)) ∧
    (fndsRelease rank ws (better, pf)).2 = pf ++ (ws.filter (fun w => better w == 1)).map (fun w => (w, rank)) := by
  intro ws
  induction ws using Gapp.ListAux.snoc_induction with
  | nil => intro _ better pf; simp [fndsRelease]
  | append_singleton ws w ih =>
    intro hn better pf
    rw [List.nodup_append] at hn
    have hw : w ∉ ws := fun hw => hn.2.2 w hw w (by simp) rfl
    have ih := ih hn.1 better pf
    rw [fndsRelease, List.foldl_append, List.foldl_cons, List.foldl_nil, ← fndsRelease]
    generalize fndsRelease rank ws (better, pf) = s at *
    have hsw := ih.1 w
    rw [if_neg hw] at hsw
    refine ⟨?_, ?_⟩
    · intro i
      dsimp only
      by_cases hi : i = w
      · subst hi; rw [fupd_same, hsw]; simp
      · rw [fupd_ne _ _ hi, ih.1 i]; simp [hi]
    · dsimp only
      rw [ih.2, hsw, List.filter_append, List.map_append]
      by_cases hb : better w = 1
      · simp [hb]
      · have : ¬ (better w - 0 - 1 = 0) := by omega
        simp [hb]; omega

/-- The invariant of the fast non-dominated sort: `S` are the processed solutions. -/
structure FInv (n : Nat) (less : Nat → Nat → Bool) (k : Nat) (S : List Nat) (better : Nat → Int)
    (pf : List (Nat × Nat)) : Prop where
  lt : ∀ i r, (i, r) ∈ pf → i < n
  nodup : (pf.map (·.1)).Nodup
  sorted : pf.Pairwise (fun a b => a.2 ≤ b.2)
  bound : ∀ e ∈ pf, e.2 ≤ k + 1
  mem : ∀ i, i < n → (i ∈ pf.map (·.1) ↔ better i = 0)
  cnt : ∀ i, i < n → better i = ((List.range n).countP (fun j => less i j && !S.contains j) : Nat)
  sub : ∀ x ∈ S, ∃ s, s ≤ k ∧ (x, s) ∈ pf
  a : ∀ i r, (i, r) ∈ pf → ∀ j, j < n → less i j = true → ∃ s, s < r ∧ (j, s) ∈ pf
  b : ∀ i r, (i, r + 1) ∈ pf → ∃ j, (j, r) ∈ pf ∧ less i j = true

theorem fnds_step {k : Nat} {S : List Nat} {better : Nat → Int} {pf : List (Nat × Nat)}
    (hi : FInv n less k S better pf) (worse : Nat → List Nat)
    (hw : ∀ i, i < n → worse i = (List.range n).filter (fun w => less w i)) {x : Nat} (hx : (x, k) ∈ pf) (hxS : x ∉ S) :
    ∃ new : List Nat, (fndsRelease (k + 1) (worse x) (better, pf)).2 = pf ++ new.map (fun w => (w, k + 1)) ∧
      FInv n less k (x :: S) (fndsRelease (k + 1) (worse x) (better, pf)).1
        (fndsRelease (k + 1) (worse x) (better, pf)).2 := by
  have hxn := hi.lt _ _ hx
  have hnd : (worse x).Nodup := by rw [hw x hxn]; exact List.nodup_range.filter _
  obtain ⟨r1, r2⟩ := fndsRelease_eq (k + 1) (worse x) hnd better pf
  generalize fndsRelease (k + 1) (worse x) (better, pf) = s at *
  refine ⟨_, r2, ?_⟩
  have hmw : ∀ i, i ∈ worse x ↔ i < n ∧ less i x = true := by
    intro i; rw [hw x hxn, List.mem_filter, List.mem_range]
  have hcnt : ∀ i, i < n → s.1 i = ((List.range n).countP (fun j => less i j && !(x :: S).contains j) : Nat) := by
    intro i hin
    rw [r1, hi.cnt i hin, countP_remove List.nodup_range (List.mem_range.2 hxn) (less i) S hxS]
    simp only [hmw, hin, true_and]
    split <;> push_cast <;> omega
  have hnewmem : ∀ i, i ∈ (worse x).filter (fun w => better w == 1) ↔ i < n ∧ less i x = true ∧ better i = 1 := by
    intro i; rw [List.mem_filter, hmw]; simp [and_assoc]
  have hpos : ∀ i, i < n → less i x = true → better i ≠ 0 := by
    intro i hin hl h0
    rw [hi.cnt i hin] at h0
    have := countP_eq_zero'.1 (by exact_mod_cast h0) x (List.mem_range.2 hxn) hl
    exact hxS this
  have hmempf : ∀ i r, (i, r) ∈ s.2 ↔ (i, r) ∈ pf ∨ (r = k + 1 ∧ i < n ∧ less i x = true ∧ better i = 1) := by
    intro i r
    rw [r2, List.mem_append, List.mem_map]
    refine or_congr Iff.rfl ⟨?_, ?_⟩
    · rintro ⟨w, hw', e⟩
      cases e
      exact ⟨rfl, (hnewmem _).1 hw'⟩
    · rintro ⟨rfl, h2⟩
      exact ⟨i, (hnewmem i).2 h2, rfl⟩
  refine ⟨?_, ?_, ?_, ?_, ?_, hcnt, ?_, ?_, ?_⟩
  · intro i r hm
    rcases (hmempf i r).1 hm with hm | hm
    · exact hi.lt _ _ hm
    · exact hm.2.1
  · rw [r2, List.map_append, List.map_map]
    have : ((fun x : Nat × Nat => x.1) ∘ fun w => (w, k + 1)) = id := rfl
    rw [this, List.map_id]
    refine List.nodup_append.2 ⟨hi.nodup, hnd.filter _, ?_⟩
    rintro i hi' j hj rfl
    have hj' := (hnewmem i).1 hj
    exact hpos i hj'.1 hj'.2.1 ((hi.mem i hj'.1).1 hi')
  · rw [r2]
    refine List.pairwise_append.2 ⟨hi.sorted, ?_, ?_⟩
    · rw [List.pairwise_map]; simp [List.pairwise_iff_getElem]
    · intro a ha b hb
      obtain ⟨w, _, rfl⟩ := List.mem_map.1 hb
      exact hi.bound a ha
  · rintro ⟨i, r⟩ hm
    rcases (hmempf i r).1 hm with hm | hm
    · exact hi.bound _ hm
    · exact Nat.le_of_eq hm.1
  · intro i hin
    rw [r1, List.mem_map]
    constructor
    · rintro ⟨⟨i', r⟩, hm, rfl⟩
      dsimp only at hin ⊢
      rcases (hmempf i' r).1 hm with hm | hm
      · have h0 := (hi.mem i' hin).1 (List.mem_map.2 ⟨_, hm, rfl⟩)
        rw [h0, if_neg]
        · rfl
        · rw [hmw]; intro hh; exact hpos i' hin hh.2 h0
      · rw [if_pos ((hmw i').2 ⟨hin, hm.2.2.1⟩), hm.2.2.2]; rfl
    · intro h0
      by_cases hm : i ∈ worse x
      · rw [if_pos hm] at h0
        exact ⟨(i, k + 1), (hmempf _ _).2 (Or.inr ⟨rfl, hin, ((hmw i).1 hm).2, by omega⟩), rfl⟩
      · rw [if_neg hm] at h0
        obtain ⟨⟨i', r⟩, hm', rfl⟩ := List.mem_map.1 ((hi.mem i hin).2 (by omega))
        exact ⟨(i', r), (hmempf _ _).2 (Or.inl hm'), rfl⟩
  · intro y hy
    rcases List.mem_cons.1 hy with rfl | hy
    · exact ⟨k, Nat.le_refl _, (hmempf _ _).2 (Or.inl hx)⟩
    · obtain ⟨q, hq, hm⟩ := hi.sub y hy
      exact ⟨q, hq, (hmempf _ _).2 (Or.inl hm)⟩
  · intro i r hm j hj hl
    rcases (hmempf i r).1 hm with hm | ⟨rfl, hin, hlx, hb⟩
    · obtain ⟨q, hq, hm⟩ := hi.a i r hm j hj hl
      exact ⟨q, hq, (hmempf _ _).2 (Or.inl hm)⟩
    · have h0 : s.1 i = 0 := by rw [r1, if_pos ((hmw i).2 ⟨hin, hlx⟩), hb]; rfl
      rw [hcnt i hin] at h0
      have hjS := countP_eq_zero'.1 (by exact_mod_cast h0) j (List.mem_range.2 hj) hl
      rcases List.mem_cons.1 hjS with rfl | hjS
      · exact ⟨k, by omega, (hmempf _ _).2 (Or.inl hx)⟩
      · obtain ⟨q, hq, hm⟩ := hi.sub j hjS
        exact ⟨q, by omega, (hmempf _ _).2 (Or.inl hm)⟩
  · intro i r hm
    rcases (hmempf i (r + 1)).1 hm with hm | ⟨e, hin, hlx, hb⟩
    · obtain ⟨j, hj, hl⟩ := hi.b i r hm
      exact ⟨j, (hmempf _ _).2 (Or.inl hj), hl⟩
    · have : r = k := by omega
      subst this
      exact ⟨x, (hmempf _ _).2 (Or.inl hx), hlx⟩

theorem fnds_front {k : Nat} (worse : Nat → List Nat)
    (hw : ∀ i, i < n → worse i = (List.range n).filter (fun w => less w i)) :
    ∀ (front : List (Nat × Nat)) (S : List Nat) (better : Nat → Int) (pf : List (Nat × Nat)),
      FInv n less k S better pf → (∀ e ∈ front, e ∈ pf ∧ e.2 = k) → (front.map (·.1)).Nodup →
      (∀ e ∈ front, e.1 ∉ S) →
      ∃ (new : List Nat) (S' : List Nat),
        (fndsFront worse (k + 1) front (better, pf)).2 = pf ++ new.map (fun w => (w, k + 1)) ∧
        (∀ y, y ∈ S' ↔ y ∈ S ∨ y ∈ front.map (·.1)) ∧
        FInv n less k S' (fndsFront worse (k + 1) front (better, pf)).1
          (fndsFront worse (k + 1) front (better, pf)).2 := by
  intro front
  induction front with
  | nil =>
    intro S better pf hi _ _ _
    exact ⟨[], S, by simp [fndsFront], by simp, hi⟩
  | cons e front ih =>
    obtain ⟨x, r⟩ := e
    intro S better pf hi hf hn hS
    obtain ⟨hx, hr⟩ := hf (x, r) (by simp)
    dsimp only at hr
    subst hr
    rw [List.map_cons, List.nodup_cons] at hn
    obtain ⟨new, e1, hi'⟩ := fnds_step hi worse hw hx (hS (x, r) (by simp))
    obtain ⟨new', S', e2, hS', hi''⟩ := ih (x :: S) _ _ hi' (by
        intro e he
        rw [e1]
        exact ⟨List.mem_append_left _ (hf e (List.mem_cons_of_mem _ he)).1, (hf e (List.mem_cons_of_mem _ he)).2⟩) hn.2 (by
        intro e he hm
        rcases List.mem_cons.1 hm with hm | hm
        · exact hn.1 (List.mem_map.2 ⟨e, he, hm⟩)
        · exact hS e (by simp [he]) hm)
    have hunf : fndsFront worse (r + 1) ((x, r) :: front) (better, pf) =
        fndsFront worse (r + 1) front (fndsRelease (r + 1) (worse x) (better, pf)) := rfl
    rw [hunf]
    refine ⟨new ++ new', S', ?_, ?_, hi''⟩
    · rw [e2, e1, List.map_append, List.append_assoc]
    · intro y
      rw [hS', List.mem_cons, List.map_cons, List.mem_cons]
      tauto

theorem fnds_loop (h : SPO n less) (worse : Nat → List Nat)
    (hw : ∀ i, i < n → worse i = (List.range n).filter (fun w => less w i)) :
    ∀ (fuel first k : Nat) (S : List Nat) (better : Nat → Int) (pf : List (Nat × Nat)),
      n ≤ fuel + first → first ≤ pf.length → FInv n less k S better pf →
      (∀ e ∈ pf.drop first, e.2 = k) → (∀ y, y ∈ S ↔ y ∈ (pf.take first).map (·.1)) →
      ∃ res, fndsLoop worse n fuel first better pf = some res ∧ RankInv n less res ∧ res.length = n := by
  intro fuel
  induction fuel with
  | zero =>
    intro first k S better pf hfu hfl hi hdrop hS
    have hle : pf.length ≤ n := by
      have := (List.subperm_of_subset hi.nodup (l₂ := List.range n) (by
        intro x hx
        obtain ⟨⟨a, r⟩, hm, rfl⟩ := List.mem_map.1 hx
        exact List.mem_range.2 (hi.lt _ _ hm))).length_le
      simpa using this
    refine ⟨pf, by rw [fndsLoop, if_pos (by omega)], ⟨hi.lt, hi.nodup, hi.sorted, ?_, hi.b⟩, by omega⟩
    intro i r j s hm hm' hl
    obtain ⟨q, hq, hmq⟩ := hi.a i r hm j (hi.lt _ _ hm') hl
    rw [rank_unique hi.nodup hm' hmq]; exact hq
  | succ fuel ih =>
    intro first k S better pf hfu hfl hi hdrop hS
    rw [fndsLoop]
    split
    · rename_i hlen
      refine ⟨pf, rfl, ⟨hi.lt, hi.nodup, hi.sorted, ?_, hi.b⟩, hlen⟩
      intro i r j s hm hm' hl
      obtain ⟨q, hq, hmq⟩ := hi.a i r hm j (hi.lt _ _ hm') hl
      rw [rank_unique hi.nodup hm' hmq]; exact hq
    · rename_i hlen
      by_cases hfirst : first < pf.length
      · rw [List.getElem?_eq_getElem hfirst]
        dsimp only
        have hk : pf[first].2 = k := hdrop _ (by
          rw [List.drop_eq_getElem_cons hfirst]; exact List.mem_cons_self)
        rw [hk]
        have hsplit : pf.map (·.1) = (pf.take first).map (·.1) ++ (pf.drop first).map (·.1) := by
          rw [← List.map_append, List.take_append_drop]
        have hnd := hi.nodup
        rw [hsplit, List.nodup_append] at hnd
        obtain ⟨new, S', e1, e2, hi'⟩ := fnds_front worse hw (pf.drop first) S better pf hi
          (fun e he => ⟨List.mem_of_mem_drop he, hdrop e he⟩) hnd.2.1
          (by
            intro e he hm
            exact hnd.2.2 _ ((hS _).1 hm) _ (List.mem_map.2 ⟨e, he, rfl⟩) rfl)
        generalize fndsFront worse (k + 1) (pf.drop first) (better, pf) = s at *
        refine ih pf.length (k + 1) S' s.1 s.2 (by omega) (by rw [e1]; simp) ?_ ?_ ?_
        · refine ⟨hi'.lt, hi'.nodup, hi'.sorted, fun e he => Nat.le_succ_of_le (hi'.bound e he), hi'.mem, hi'.cnt, ?_,
            hi'.a, hi'.b⟩
          intro x hx
          obtain ⟨q, hq, hm⟩ := hi'.sub x hx
          exact ⟨q, by omega, hm⟩
        · intro e he
          rw [e1, List.drop_append_of_le_length (Nat.le_refl _)] at he
          simp only [List.drop_length, List.nil_append] at he
          obtain ⟨w, _, rfl⟩ := List.mem_map.1 he
          rfl
        · intro y
          rw [e2, hS, e1, List.take_append_of_le_length (Nat.le_refl _), List.take_length, hsplit, List.mem_append]
      · exfalso
        have hle : pf.length ≤ n := by
          have := (List.subperm_of_subset hi.nodup (l₂ := List.range n) (by
            intro x hx
            obtain ⟨⟨a, r⟩, hm, rfl⟩ := List.mem_map.1 hx
            exact List.mem_range.2 (hi.lt _ _ hm))).length_le
          simpa using this
        have hfe : first = pf.length := by omega
        rw [hfe, List.take_length] at hS
        have hU : ∃ x, x ∈ (List.range n).filter (fun i => !(pf.map (·.1)).contains i) := by
          by_contra hno
          push Not at hno
          have hsub : (List.range n) ⊆ pf.map (·.1) := by
            intro i hin
            by_contra hni
            exact hno i (List.mem_filter.2 ⟨hin, by simpa using hni⟩)
          have := (List.subperm_of_subset List.nodup_range hsub).length_le
          simp at this
          omega
        obtain ⟨x, hx⟩ := hU
        obtain ⟨y, hy, _, hny⟩ := exists_maximal h _ (by
          intro z hz; simpa using (List.mem_filter.1 hz).1) _ x hx (Nat.le_refl _)
        rw [nd_iff] at hny
        have hyn : y < n := by simpa using (List.mem_filter.1 hy).1
        have hyp : y ∉ pf.map (·.1) := by simpa using (List.mem_filter.1 hy).2
        refine hyp ((hi.mem y hyn).2 ?_)
        rw [hi.cnt y hyn]
        have : (List.range n).countP (fun j => less y j && !S.contains j) = 0 := by
          rw [countP_eq_zero']
          intro j hj hl
          rw [hS]
          by_contra hjp
          have := hny j (List.mem_filter.2 ⟨hj, by simpa using hjp⟩)
          rw [hl] at this; cases this
        rw [this]; rfl

theorem fnds_isNdSort (h : SPO n less) {cmp : Nat → Nat → Int}
    (hc1 : ∀ i j, i < n → j < n → (cmp i j > 0 ↔ less j i = true))
    (hc2 : ∀ i j, i < n → j < n → (cmp i j < 0 ↔ less i j = true)) :
    ∃ res, fndsSort cmp n = some res ∧ IsNdSort (fun j i => less i j = true) n res := by
  have hd := domLists_outer h hc1 hc2 n (Nat.le_refl _)
  unfold fndsSort
  dsimp only
  unfold constructDominanceLists
  generalize (List.range n).foldl (fun d lhs => (List.range lhs).foldl (domListsBody cmp lhs) d)
        { worse := fun _ => [], better := fun _ => 0 } = d at *
  have hw : ∀ i, i < n → d.worse i = (List.range n).filter (fun w => less w i) := by
    intro i hin; rw [(hd i).2, if_pos hin]
  have hb : ∀ i, i < n → d.better i = ((List.range n).countP (less i) : Nat) := by
    intro i hin; rw [(hd i).1, if_pos hin]
  have hmem : ∀ i r, (i, r) ∈ ((List.range n).filter (fun i => d.better i == 0)).map (fun i => (i, 0)) ↔
      r = 0 ∧ i < n ∧ d.better i = 0 := by
    intro i r
    rw [List.mem_map]
    constructor
    · rintro ⟨a, ha, e⟩
      cases e
      have := List.mem_filter.1 ha
      exact ⟨rfl, by simpa using this.1, by simpa using this.2⟩
    · rintro ⟨rfl, h1, h2⟩
      exact ⟨i, List.mem_filter.2 ⟨List.mem_range.2 h1, by simpa using h2⟩, rfl⟩
  have hmap : (((List.range n).filter (fun i => d.better i == 0)).map (fun i => (i, 0))).map (·.1) =
      (List.range n).filter (fun i => d.better i == 0) := by
    rw [List.map_map]
    have : ((fun x : Nat × Nat => x.1) ∘ fun i => (i, 0)) = id := rfl
    rw [this, List.map_id]
  obtain ⟨res, r1, r2, r3⟩ := fnds_loop h d.worse hw n 0 0 [] d.better
    (((List.range n).filter (fun i => d.better i == 0)).map (fun i => (i, 0))) (by omega) (by omega)
    (by
      refine ⟨?_, ?_, ?_, ?_, ?_, ?_, by simp, ?_, ?_⟩
      · intro i r hm; exact ((hmem i r).1 hm).2.1
      · rw [hmap]; exact List.nodup_range.filter _
      · rw [List.pairwise_map]; simp [List.pairwise_iff_getElem]
      · rintro ⟨i, r⟩ hm; rw [((hmem i r).1 hm).1]; omega
      · intro i hin; rw [hmap, List.mem_filter]; simp [hin]
      · intro i hin; rw [hb i hin]; simp
      · intro i r hm j hj hl
        obtain ⟨_, hin, h0⟩ := (hmem i r).1 hm
        rw [hb i hin] at h0
        have := List.countP_eq_zero.1 (by exact_mod_cast h0) j (List.mem_range.2 hj)
        exact absurd hl this
      · intro i r hm
        have := ((hmem _ _).1 hm).1
        omega)
    (by
      rintro ⟨i, r⟩ hm
      rw [List.drop_zero] at hm
      exact ((hmem i r).1 hm).1)
    (by simp)
  refine ⟨res, r1, r2.isNdSort ?_⟩
  refine (List.subperm_of_subset r2.nodup ?_).perm_of_length_le (by simp [r3])
  intro x hx
  obtain ⟨⟨a, r⟩, hm, rfl⟩ := List.mem_map.1 hx
  exact List.mem_range.2 (r2.lt _ _ hm)

end Fnds

/-! ### DDS -/

section Dds
variable {n : Nat} {less : Nat → Nat → Bool}

theorem DomMat.set_get (d : DomMat) (row col r c : Nat) (v : Bool) :
    d.set row col v r c = if r = row ∧ c = col then v else d r c := rfl

theorem applyMarks_eq (marks : List (Nat × Nat)) (d : DomMat) (r c : Nat) :
    applyMarks d marks r c = (d r c && !marks.contains (r, c)) := by
  unfold applyMarks
  induction marks generalizing d with
  | nil => simp
  | cons m marks ih =>
    obtain ⟨a, b⟩ := m
    rw [List.foldl_cons, ih]
    dsimp only
    rw [DomMat.set_get]
    by_cases h : r = a ∧ c = b
    · obtain ⟨rfl, rfl⟩ := h; simp
    · rw [if_neg h]
      have : ((r, c) == (a, b)) = false := by
        rw [beq_eq_false_iff_ne]; intro e; cases e; exact h ⟨rfl, rfl⟩
      rw [List.contains_cons, this, Bool.false_or]

theorem clearRow_eq (row : Nat) : ∀ (cols : List Nat), cols.Nodup → row ∉ cols → ∀ (d : DomMat) (r c : Nat),
    cols.foldl (clearPair row) d r c =
      (d r c && !(((r == row && cols.contains c) || (c == row && cols.contains r)) && d r c && d c r)) := by
  intro cols
  induction cols with
  | nil => intro _ _ d r c; simp
  | cons x cols ih =>
    intro hn hr d r c
    rw [List.nodup_cons] at hn
    have hxr : x ≠ row := fun e => hr (by simp [e])
    rw [List.foldl_cons, ih hn.2 (fun e => hr (by simp [e]))]
    have hcp : ∀ r c, clearPair row d x r c =
        (d r c && !(((r == row && c == x) || (c == row && r == x)) && d r c && d c r)) := by
      intro r c
      unfold clearPair
      split
      · rename_i hb
        rw [Bool.and_eq_true] at hb
        rw [DomMat.set_get, DomMat.set_get]
        by_cases h1 : r = x ∧ c = row
        · obtain ⟨rfl, rfl⟩ := h1
          rw [if_pos ⟨rfl, rfl⟩]; simp [hb.1, hb.2]
        · rw [if_neg h1]
          by_cases h2 : r = row ∧ c = x
          · obtain ⟨rfl, rfl⟩ := h2
            rw [if_pos ⟨rfl, rfl⟩]; simp [hb.1, hb.2]
          · rw [if_neg h2]
            have e1 : (r == row && c == x) = false := by
              rw [← Bool.not_eq_true, Bool.and_eq_true]; simpa using h2
            have e2 : (c == row && r == x) = false := by
              rw [← Bool.not_eq_true, Bool.and_eq_true]; simp only [beq_iff_eq]; exact fun e => h1 ⟨e.2, e.1⟩
            rw [e1, e2]; simp
      · rename_i hb
        by_cases h1 : r = row ∧ c = x
        · obtain ⟨rfl, rfl⟩ := h1
          revert hb; generalize d r c = a; generalize d c r = b
          cases a <;> cases b <;> simp
        · by_cases h2 : r = x ∧ c = row
          · obtain ⟨rfl, rfl⟩ := h2
            revert hb; generalize d r c = a; generalize d c r = b
            cases a <;> cases b <;> simp
          · have e1 : (r == row && c == x) = false := by
              rw [← Bool.not_eq_true, Bool.and_eq_true]; simpa using h1
            have e2 : (c == row && r == x) = false := by
              rw [← Bool.not_eq_true, Bool.and_eq_true]; simp only [beq_iff_eq]; exact fun e => h2 ⟨e.2, e.1⟩
            rw [e1, e2]; simp
    rw [hcp r c, hcp c r]
    simp only [List.contains_cons]
    generalize d r c = a
    generalize d c r = b
    generalize cols.contains c = C
    generalize cols.contains r = R
    generalize (r == row) = p
    generalize (c == row) = q
    generalize (c == x) = u
    generalize (r == x) = v
    revert a b C R p q u v
    decide

theorem clearEqual_eq (d : DomMat) : ∀ (R : Nat), R ≤ n → ∀ (r c : Nat), r < n → c < n →
    (List.range R).foldl (fun d row =>
      ((List.range n).filter (fun col => row + 1 ≤ col)).foldl (clearPair row) (d.set row row false)) d r c =
      if r = c then (d r c && !decide (r < R)) else (d r c && !(decide (min r c < R) && d r c && d c r)) := by
  intro R
  induction R with
  | zero => intro _ r c _ _; simp
  | succ R ih =>
    intro hR
    have ih := ih (by omega)
    intro r c hr hc
    rw [List.range_succ, List.foldl_append, List.foldl_cons, List.foldl_nil]
    generalize hD : (List.range R).foldl (fun d row =>
      ((List.range n).filter (fun col => row + 1 ≤ col)).foldl (clearPair row) (d.set row row false)) d = D at *
    rw [clearRow_eq R _ (List.nodup_range.filter _) (by simp)]
    rw [DomMat.set_get, DomMat.set_get]
    have hcont : ∀ x, x < n → ((List.range n).filter (fun col => R + 1 ≤ col)).contains x = decide (R < x) := by
      intro x hx
      rw [Bool.eq_iff_iff]
      simp [hx]; omega
    rw [hcont r hr, hcont c hc, ih r c hr hc, ih c r hc hr]
    by_cases hrc : r = c
    · subst hrc
      simp only [if_true]
      by_cases hrR : r = R
      · subst hrR; simp
      · rw [if_neg (by tauto)]
        have e : decide (r < R + 1) = decide (r < R) := by rw [decide_eq_decide]; omega
        rw [e, show (r == R) = false by simpa using hrR]; simp
    · have hcr : ¬ c = r := fun e => hrc e.symm
      have g1 : ¬ (r = R ∧ c = R) := fun e => hrc (e.1.trans e.2.symm)
      have g2 : ¬ (c = R ∧ r = R) := fun e => hrc (e.2.trans e.1.symm)
      simp only [g1, g2, hrc, hcr, if_false]
      have e1 : decide (min r c < R + 1) = (decide (min r c < R) || (decide (r = R) && decide (R < c)) ||
          (decide (c = R) && decide (R < r))) := by
        rw [Bool.eq_iff_iff]; simp; omega
      rw [e1, Nat.min_comm c r]
      have b1 : (r == R) = decide (r = R) := by rw [Bool.eq_iff_iff]; simp
      have b2 : (c == R) = decide (c = R) := by rw [Bool.eq_iff_iff]; simp
      rw [b1, b2]
      generalize d r c = a
      generalize d c r = b
      generalize decide (min r c < R) = m
      generalize decide (r = R) = p
      generalize decide (c = R) = q
      generalize decide (R < c) = u
      generalize decide (R < r) = v
      revert a b m p q u v
      decide

theorem colsum_eq (f : Nat → Bool) (l : List Nat) (z : Int) :
    l.foldl (fun sum row => sum - (if f row then 0 else 1)) z = z - l.length + l.countP f := by
  induction l generalizing z with
  | nil => simp
  | cons x l ih =>
    rw [List.foldl_cons, ih, List.countP_cons, List.length_cons]
    cases f x <;> simp <;> omega

theorem ddsRemoveRow_eq (row : Nat) (d : DomMat) (cols : List (Nat × Int)) (hn : (cols.map (·.1)).Nodup) :
    (ddsRemoveRow (d, cols) row).2 = cols.map (fun c => if d row c.1 then (c.1, c.2 - 1) else c) ∧
    (∀ r c, r ≠ row → (ddsRemoveRow (d, cols) row).1 r c = d r c) ∧
    (∀ c, c ∉ cols.map (·.1) → (ddsRemoveRow (d, cols) row).1 row c = d row c) := by
  unfold ddsRemoveRow
  dsimp only
  induction cols using Gapp.ListAux.snoc_induction with
  | nil => simp
  | append_singleton cols x ih =>
    rw [List.map_append, List.nodup_append] at hn
    have ih := ih hn.1
    rw [List.foldl_append, List.foldl_cons, List.foldl_nil]
    generalize cols.foldl (fun acc c =>
      if acc.1 row c.1 = true then (DomMat.set acc.1 row c.1 false, acc.2 ++ [(c.1, c.2 - 1)])
      else (acc.1, acc.2 ++ [c])) (d, []) = s at *
    obtain ⟨i1, i2, i3⟩ := ih
    have hx : x.1 ∉ cols.map (·.1) := fun hm => hn.2.2 _ hm x.1 (by simp) rfl
    rw [i3 _ hx]
    rw [List.map_append, List.map_append]
    split
    · rename_i hd
      refine ⟨by rw [i1]; simp [hd], ?_, ?_⟩
      · intro r c hr
        dsimp only; rw [DomMat.set_get, if_neg (by tauto)]; exact i2 r c hr
      · intro c hc
        simp only [List.map_cons, List.map_nil, List.mem_append, List.mem_singleton, not_or] at hc
        dsimp only; rw [DomMat.set_get, if_neg (by tauto)]; exact i3 c hc.1
    · rename_i hd
      refine ⟨by rw [i1]; simp [hd], i2, ?_⟩
      intro c hc
      simp only [List.map_cons, List.map_nil, List.mem_append, List.mem_singleton, not_or] at hc
      exact i3 c hc.1

/-- The column invariant: `S` are the removed rows. -/
structure CInv (n : Nat) (less : Nat → Nat → Bool) (S : List Nat) (d : DomMat) (cols : List (Nat × Int)) : Prop where
  nodup : (cols.map (·.1)).Nodup
  lt : ∀ c ∈ cols, c.1 < n
  mat : ∀ r c, r < n → c < n → r ∉ S → d r c = less c r
  sum : ∀ c ∈ cols, c.2 = ((List.range n).countP (fun j => less c.1 j && !S.contains j) : Nat)

theorem dds_removeRow {S : List Nat} {d : DomMat} {cols : List (Nat × Int)} (hi : CInv n less S d cols) {x : Nat}
    (hx : x < n) (hxS : x ∉ S) :
    CInv n less (x :: S) (ddsRemoveRow (d, cols) x).1 (ddsRemoveRow (d, cols) x).2 ∧
    (ddsRemoveRow (d, cols) x).2.map (·.1) = cols.map (·.1) := by
  obtain ⟨r1, r2, r3⟩ := ddsRemoveRow_eq x d cols hi.nodup
  generalize ddsRemoveRow (d, cols) x = s at *
  have hmap : s.2.map (·.1) = cols.map (·.1) := by
    rw [r1, List.map_map]
    apply List.map_congr_left
    intro c _
    simp only [Function.comp_apply]
    split <;> rfl
  refine ⟨⟨by rw [hmap]; exact hi.nodup, ?_, ?_, ?_⟩, hmap⟩
  · intro c hc
    have : c.1 ∈ cols.map (·.1) := by rw [← hmap]; exact List.mem_map.2 ⟨c, hc, rfl⟩
    obtain ⟨c', hc', e⟩ := List.mem_map.1 this
    rw [← e]; exact hi.lt c' hc'
  · intro r c hr hc hrS
    rw [List.mem_cons, not_or] at hrS
    rw [r2 r c hrS.1]; exact hi.mat r c hr hc hrS.2
  · intro c hc
    rw [r1] at hc
    obtain ⟨c', hc', rfl⟩ := List.mem_map.1 hc
    have h1 := hi.sum c' hc'
    have h2 := countP_remove List.nodup_range (List.mem_range.2 hx) (less c'.1) S hxS
    rw [hi.mat x c'.1 hx (hi.lt c' hc') hxS]
    split
    · rename_i hl
      rw [if_pos hl] at h2
      dsimp only
      rw [h1, h2]; push_cast; omega
    · rename_i hl
      rw [if_neg hl] at h2
      rw [h1, h2]; simp

theorem dds_removeRows : ∀ (rows S : List Nat) (d : DomMat) (cols : List (Nat × Int)), CInv n less S d cols →
    rows.Nodup → (∀ x ∈ rows, x < n ∧ x ∉ S) →
    ∃ S', (∀ y, y ∈ S' ↔ y ∈ rows ∨ y ∈ S) ∧
      CInv n less S' (rows.foldl ddsRemoveRow (d, cols)).1 (rows.foldl ddsRemoveRow (d, cols)).2 ∧
      (rows.foldl ddsRemoveRow (d, cols)).2.map (·.1) = cols.map (·.1) := by
  intro rows
  induction rows with
  | nil => intro S d cols hi _ _; exact ⟨S, by simp, hi, rfl⟩
  | cons x rows ih =>
    intro S d cols hi hn hS
    rw [List.nodup_cons] at hn
    obtain ⟨h1, h2⟩ := dds_removeRow hi (hS x (by simp)).1 (hS x (by simp)).2
    rw [List.foldl_cons]
    generalize ddsRemoveRow (d, cols) x = s at *
    obtain ⟨d', cols'⟩ := s
    obtain ⟨S', k1, k2, k3⟩ := ih (x :: S) d' cols' h1 hn.2 (by
      intro y hy
      refine ⟨(hS y (by simp [hy])).1, ?_⟩
      rw [List.mem_cons, not_or]
      exact ⟨fun e => hn.1 (e ▸ hy), (hS y (by simp [hy])).2⟩)
    refine ⟨S', ?_, k2, k3.trans h2⟩
    intro y
    rw [k1, List.mem_cons, List.mem_cons]; tauto

theorem dds_loop (h : SPO n less) : ∀ (fuel : Nat) (d : DomMat) (cols : List (Nat × Int)) (rank : Nat) (S : List Nat)
    (pf : List (Nat × Nat)), n ≤ fuel + pf.length → CInv n less S d cols → RankInv n less pf →
    (∀ y, y ∈ S ↔ y ∈ pf.map (·.1)) → (∀ i, i < n → (i ∈ cols.map (·.1) ↔ i ∉ S)) →
    (∀ e ∈ pf, e.2 < rank) → (∀ i, i ∈ S → ∀ j, j < n → less i j = true → j ∈ S) →
    (∀ i k, i < n → i ∉ S → rank = k + 1 → ∃ j, j < n ∧ less i j = true ∧ ∀ s, (j, s) ∈ pf → s = k) →
    ∃ res, ddsLoop n fuel d cols rank pf = some res ∧ RankInv n less res ∧ res.length = n := by
  intro fuel
  induction fuel with
  | zero =>
    intro d cols rank S pf hf hc hr hS hcols hrank hup hprev
    have hle : pf.length ≤ n := by
      have := (List.subperm_of_subset hr.nodup (l₂ := List.range n) (by
        intro x hx
        obtain ⟨⟨a, r⟩, hm, rfl⟩ := List.mem_map.1 hx
        exact List.mem_range.2 (hr.lt _ _ hm))).length_le
      simpa using this
    exact ⟨pf, by rw [ddsLoop, if_pos (by omega)], hr, by omega⟩
  | succ fuel ih =>
    intro d cols rank S pf hf hc hr hS hcols hrank hup hprev
    rw [ddsLoop]
    split
    · rename_i hlen; exact ⟨pf, rfl, hr, hlen⟩
    · rename_i hlen
      dsimp only
      -- the removed columns
      have hremmem : ∀ i, i ∈ (cols.filter (fun c => c.2 == 0)).map (·.1) ↔
          i < n ∧ i ∉ S ∧ ∀ j, j < n → less i j = true → j ∈ S := by
        intro i
        constructor
        · intro hm
          obtain ⟨c, hcm, rfl⟩ := List.mem_map.1 hm
          obtain ⟨hcm, h0⟩ := List.mem_filter.1 hcm
          have hlt := hc.lt c hcm
          refine ⟨hlt, (hcols _ hlt).1 (List.mem_map.2 ⟨c, hcm, rfl⟩), ?_⟩
          intro j hj hl
          have hs := hc.sum c hcm
          rw [show c.2 = 0 by simpa using h0] at hs
          exact countP_eq_zero'.1 (by exact_mod_cast hs.symm) j (List.mem_range.2 hj) hl
        · rintro ⟨hlt, hnS, hall⟩
          obtain ⟨c, hcm, rfl⟩ := List.mem_map.1 ((hcols i hlt).2 hnS)
          refine List.mem_map.2 ⟨c, List.mem_filter.2 ⟨hcm, ?_⟩, rfl⟩
          rw [beq_iff_eq, hc.sum c hcm]
          have := (countP_eq_zero' (l := List.range n) (S := S) (p := less c.1)).2 (fun j hj hl =>
            hall j (by simpa using hj) hl)
          rw [this]; rfl
      have hremnd : ((cols.filter (fun c => c.2 == 0)).map (·.1)).Nodup :=
        hc.nodup.sublist (List.filter_sublist.map _)
      have hkeepmem : ∀ i, i ∈ (cols.filter (fun c => c.2 != 0)).map (·.1) ↔
          i ∈ cols.map (·.1) ∧ i ∉ (cols.filter (fun c => c.2 == 0)).map (·.1) := by
        intro i
        constructor
        · intro hm
          obtain ⟨c, hcm, rfl⟩ := List.mem_map.1 hm
          obtain ⟨hcm, h0⟩ := List.mem_filter.1 hcm
          refine ⟨List.mem_map.2 ⟨c, hcm, rfl⟩, ?_⟩
          intro hm'
          obtain ⟨c', hcm', e⟩ := List.mem_map.1 hm'
          obtain ⟨hcm', h0'⟩ := List.mem_filter.1 hcm'
          have s1 := hc.sum c hcm
          have s2 := hc.sum c' hcm'
          rw [e] at s2
          rw [← s1] at s2
          rw [s2] at h0'
          simp at h0 h0'
          exact h0 h0'
        · rintro ⟨hm, hnm⟩
          obtain ⟨c, hcm, rfl⟩ := List.mem_map.1 hm
          refine List.mem_map.2 ⟨c, List.mem_filter.2 ⟨hcm, ?_⟩, rfl⟩
          rw [bne_iff_ne]
          intro h0
          exact hnm (List.mem_map.2 ⟨c, List.mem_filter.2 ⟨hcm, by simpa using h0⟩, rfl⟩)
      have hckeep : CInv n less S d (cols.filter (fun c => c.2 != 0)) :=
        ⟨hc.nodup.sublist (List.filter_sublist.map _), fun c hcm => hc.lt c (List.mem_filter.1 hcm).1, hc.mat,
          fun c hcm => hc.sum c (List.mem_filter.1 hcm).1⟩
      generalize (cols.filter (fun c => c.2 == 0)).map (·.1) = rem at *
      generalize cols.filter (fun c => c.2 != 0) = keep at *
      obtain ⟨S', k1, k2, k3⟩ := dds_removeRows rem S d keep hckeep hremnd
        (fun x hx => ⟨((hremmem x).1 hx).1, ((hremmem x).1 hx).2.1⟩)
      generalize rem.foldl ddsRemoveRow (d, keep) = s at *
      have hle : pf.length ≤ n := by
        have := (List.subperm_of_subset hr.nodup (l₂ := List.range n) (by
          intro x hx
          obtain ⟨⟨a, r⟩, hm, rfl⟩ := List.mem_map.1 hx
          exact List.mem_range.2 (hr.lt _ _ hm))).length_le
        simpa using this
      -- progress
      have hne : rem ≠ [] := by
        intro hnil
        have hU : ∃ x, x ∈ (List.range n).filter (fun i => !S.contains i) := by
          by_contra hno
          push Not at hno
          have hsub : (List.range n) ⊆ pf.map (·.1) := by
            intro i hin
            rw [← hS]
            by_contra hni
            exact hno i (List.mem_filter.2 ⟨hin, by simpa using hni⟩)
          have := (List.subperm_of_subset List.nodup_range hsub).length_le
          simp at this
          omega
        obtain ⟨x, hx⟩ := hU
        obtain ⟨y, hy, _, hny⟩ := exists_maximal h _ (by
          intro z hz; simpa using (List.mem_filter.1 hz).1) _ x hx (Nat.le_refl _)
        rw [nd_iff] at hny
        have hyn : y < n := by simpa using (List.mem_filter.1 hy).1
        have hyp : y ∉ S := by simpa using (List.mem_filter.1 hy).2
        have : y ∈ rem := (hremmem y).2 ⟨hyn, hyp, by
          intro j hj hl
          by_contra hjS
          have := hny j (List.mem_filter.2 ⟨List.mem_range.2 hj, by simpa using hjS⟩)
          rw [hl] at this; cases this⟩
        rw [hnil] at this; simp at this
      have hlen' : 0 < rem.length := List.length_pos_iff.2 hne
      have hmem : ∀ i r, (i, r) ∈ pf ++ rem.map (fun i => (i, rank)) ↔ (i, r) ∈ pf ∨ (i ∈ rem ∧ r = rank) := by
        intro i r
        rw [List.mem_append, List.mem_map]
        refine or_congr Iff.rfl ⟨?_, ?_⟩
        · rintro ⟨a, ha, e⟩; cases e; exact ⟨ha, rfl⟩
        · rintro ⟨ha, rfl⟩; exact ⟨i, ha, rfl⟩
      have hmap : (pf ++ rem.map (fun i => (i, rank))).map (·.1) = pf.map (·.1) ++ rem := by
        rw [List.map_append, List.map_map]
        have : ((fun x : Nat × Nat => x.1) ∘ fun i => (i, rank)) = id := rfl
        rw [this, List.map_id]
      refine ih s.1 s.2 (rank + 1) S' _ (by simp; omega) k2 ?_ ?_ ?_ ?_ ?_ ?_
      · refine ⟨?_, ?_, ?_, ?_, ?_⟩
        · intro i r hm
          rcases (hmem i r).1 hm with hm | hm
          · exact hr.lt _ _ hm
          · exact ((hremmem i).1 hm.1).1
        · rw [hmap]
          refine List.nodup_append.2 ⟨hr.nodup, hremnd, ?_⟩
          rintro a ha b hb rfl
          exact ((hremmem a).1 hb).2.1 ((hS a).2 ha)
        · refine List.pairwise_append.2 ⟨hr.sorted, ?_, ?_⟩
          · rw [List.pairwise_map]; simp [List.pairwise_iff_getElem]
          · intro a ha b hb
            obtain ⟨w, _, rfl⟩ := List.mem_map.1 hb
            exact Nat.le_of_lt (hrank a ha)
        · intro i r j q hm1 hm2 hl
          rcases (hmem i r).1 hm1 with hm1' | ⟨hi', rfl⟩ <;> rcases (hmem j q).1 hm2 with hm2' | ⟨hj', rfl⟩
          · exact hr.a i r j q hm1' hm2' hl
          · exfalso
            have hjn := ((hremmem j).1 hj').1
            have hjS := ((hremmem j).1 hj').2.1
            exact hjS (hup i ((hS i).2 (List.mem_map.2 ⟨_, hm1', rfl⟩)) j hjn hl)
          · exact hrank _ hm2'
          · exfalso
            have := ((hremmem i).1 hi').2.2 j ((hremmem j).1 hj').1 hl
            exact ((hremmem j).1 hj').2.1 this
        · intro i r hm
          rcases (hmem i (r + 1)).1 hm with hm' | ⟨hi', hr'⟩
          · obtain ⟨j, hj, hl⟩ := hr.b i r hm'
            exact ⟨j, (hmem _ _).2 (Or.inl hj), hl⟩
          · obtain ⟨h1, h2, h3⟩ := (hremmem i).1 hi'
            obtain ⟨j, hj, hl, hall⟩ := hprev i r h1 h2 hr'.symm
            have hjS := h3 j hj hl
            obtain ⟨⟨j', q⟩, hm', rfl⟩ := List.mem_map.1 ((hS j).1 hjS)
            have := hall q hm'
            subst this
            exact ⟨j', (hmem _ _).2 (Or.inl hm'), hl⟩
      · intro y
        rw [k1, hmap, List.mem_append, hS]; tauto
      · intro i hin
        rw [k3, hkeepmem, hcols i hin, k1]; tauto
      · rintro ⟨i, r⟩ hm
        rcases (hmem i r).1 hm with hm | hm
        · have := hrank _ hm; dsimp only at this ⊢; omega
        · dsimp only; omega
      · intro i hiS j hj hl
        rw [k1] at hiS ⊢
        rcases hiS with hi' | hi'
        · exact Or.inr (((hremmem i).1 hi').2.2 j hj hl)
        · exact Or.inr (hup i hi' j hj hl)
      · intro i k hin hiS hk
        have hk : k = rank := by omega
        subst hk
        rw [k1, not_or] at hiS
        have : ¬ ∀ j, j < n → less i j = true → j ∈ S := fun hall => hiS.1 ((hremmem i).2 ⟨hin, hiS.2, hall⟩)
        push Not at this
        obtain ⟨j, hj, hl, hjS⟩ := this
        refine ⟨j, hj, hl, ?_⟩
        intro q hm
        rcases (hmem j q).1 hm with hm | hm
        · exact absurd ((hS j).2 (List.mem_map.2 ⟨_, hm, rfl⟩)) hjS
        · exact hm.2

theorem dds_isNdSort (h : SPO n less) (marks : List (Nat × Nat))
    (hm : ∀ r c, r < n → c < n → r ≠ c →
      (((r, c) ∉ marks ∧ ¬ ((r, c) ∉ marks ∧ (c, r) ∉ marks)) ↔ less c r = true)) :
    ∃ res, ddsSort n marks = some res ∧ IsNdSort (fun j i => less i j = true) n res := by
  have hd : ∀ r c, r < n → c < n → clearEqual n (applyMarks (fun _ _ => true) marks) r c = less c r := by
    intro r c hr hc
    unfold clearEqual
    rw [clearEqual_eq _ n (Nat.le_refl _) r c hr hc]
    split
    · rename_i e
      subst e
      rw [h.irrefl _ hr]; simp [hr]
    · rename_i e
      have hmin : decide (min r c < n) = true := by rw [decide_eq_true_eq]; omega
      rw [hmin, applyMarks_eq, applyMarks_eq, Bool.eq_iff_iff, ← hm r c hr hc e]
      simp only [Bool.true_and, Bool.and_eq_true, Bool.not_eq_true', List.contains_eq_mem,
        decide_eq_false_iff_not, Bool.and_eq_false_iff, decide_eq_true_eq, Bool.not_eq_false']
      tauto
  unfold ddsSort
  dsimp only
  generalize clearEqual n (applyMarks (fun _ _ => true) marks) = d at *
  have hmap : (colwiseSums n d).map (·.1) = List.range n := by
    unfold colwiseSums
    rw [List.map_map]
    exact List.map_id _
  obtain ⟨res, r1, r2, r3⟩ := dds_loop h n d (colwiseSums n d) 0 [] [] (by simp)
    ⟨by rw [hmap]; exact List.nodup_range, by
      intro c hc
      have : c.1 ∈ (colwiseSums n d).map (·.1) := List.mem_map.2 ⟨c, hc, rfl⟩
      rw [hmap] at this; simpa using this, fun r c hr hc _ => hd r c hr hc, by
      intro c hc
      unfold colwiseSums at hc
      obtain ⟨col, hcol, rfl⟩ := List.mem_map.1 hc
      dsimp only
      rw [colsum_eq]
      have : (List.range n).countP (fun row => d row col) =
          (List.range n).countP (fun j => less col j && !([] : List Nat).contains j) := by
        apply List.countP_congr
        intro j hj
        rw [hd j col (by simpa using hj) (by simpa using hcol)]; simp
      rw [this]; simp⟩
    ⟨by simp, by simp, by simp, by simp, by simp⟩ (by simp) (by intro i hi; rw [hmap]; simpa using hi) (by simp)
    (by simp) (by intro i k _ _ hk; omega)
  refine ⟨res, r1, r2.isNdSort ?_⟩
  refine (List.subperm_of_subset r2.nodup ?_).perm_of_length_le (by simp [r3])
  intro x hx
  obtain ⟨⟨a, r⟩, hm, rfl⟩ := List.mem_map.1 hx
  exact List.mem_range.2 (r2.lt _ _ hm)

end Dds

/-! ### The marks of the parallel phase -/

section Marks
variable {K : Type} [CommRing K] [LinearOrder K] [IsStrictOrderedRing K]

theorem objectiveMarks_mem {v : Nat → Flt K} {eq : Nat → Nat → Bool} (heq : ∀ i j, eq i j = true ↔ v i = v j) :
    ∀ (l : List Nat), l.Pairwise (fun a b => v a ≤ v b) → l.Nodup → ∀ r c,
      (r, c) ∈ objectiveMarks eq l ↔ r ∈ l ∧ c ∈ l ∧ v r < v c := by
  intro l
  induction l with
  | nil => intro _ _ r c; simp [objectiveMarks]
  | cons x l ih =>
    intro hs hn r c
    have hs' := List.pairwise_cons.1 hs
    have hn' := List.nodup_cons.1 hn
    rw [objectiveMarks, List.mem_append, ih hs'.2 hn'.2]
    have hdw : ∀ c, c ∈ l.dropWhile (fun prev => eq prev x) ↔ c ∈ l ∧ v x < v c := by
      intro c
      have hgen : ∀ l : List Nat, l.Pairwise (fun a b => v a ≤ v b) → (∀ a ∈ l, v x ≤ v a) →
          (c ∈ l.dropWhile (fun prev => eq prev x) ↔ c ∈ l ∧ v x < v c) := by
        intro l
        induction l with
        | nil => simp
        | cons y l ih =>
          intro hs hx
          rw [List.dropWhile_cons]
          have hs' := List.pairwise_cons.1 hs
          split
          · rename_i he
            have he := (heq y x).1 he
            rw [ih hs'.2 (fun a ha => hx a (List.mem_cons_of_mem _ ha)), List.mem_cons]
            constructor
            · rintro ⟨h1, h2⟩; exact ⟨Or.inr h1, h2⟩
            · rintro ⟨h1 | h1, h2⟩
              · subst h1; rw [he] at h2; exact absurd h2 (lt_irrefl _)
              · exact ⟨h1, h2⟩
          · rename_i he
            have hlt : v x < v y := lt_of_le_of_ne (hx y (by simp)) (fun e => he ((heq y x).2 e.symm))
            constructor
            · intro hm
              refine ⟨hm, ?_⟩
              rcases List.mem_cons.1 hm with e | e
              · rw [e]; exact hlt
              · exact lt_of_lt_of_le hlt (hs'.1 c e)
            · exact fun hm => hm.1
      exact hgen l hs'.2 hs'.1
    constructor
    · rintro (hm | ⟨h1, h2, h3⟩)
      · obtain ⟨c', hc', e⟩ := List.mem_map.1 hm
        cases e
        have := (hdw c).1 hc'
        exact ⟨by simp, by simp [this.1], this.2⟩
      · exact ⟨by simp [h1], by simp [h2], h3⟩
    · rintro ⟨h1, h2, h3⟩
      rcases List.mem_cons.1 h1 with e1 | e1
      · subst e1
        rcases List.mem_cons.1 h2 with e2 | e2
        · subst e2; exact absurd h3 (lt_irrefl _)
        · exact Or.inl (List.mem_map.2 ⟨c, (hdw c).2 ⟨e2, h3⟩, rfl⟩)
      · rcases List.mem_cons.1 h2 with e2 | e2
        · subst e2; exact absurd h3 (not_lt_of_ge (hs'.1 r e1))
        · exact Or.inr ⟨e1, e2, h3⟩

theorem taskMarks_mem {fmat : FMat K} {obj : Nat} {indices : List Nat} (hs : IsObjArgsort fmat obj indices) (r c : Nat) :
    (r, c) ∈ taskMarks (⟨0, 0⟩ : Tol K) fmat obj indices ↔
      r < fmat.length ∧ c < fmat.length ∧ objVal fmat obj r < objVal fmat obj c := by
  unfold taskMarks
  rw [objectiveMarks_mem (v := objVal fmat obj) (fun i j => by rw [isEqual_zero, decide_eq_true_eq])]
  · simp only [List.mem_reverse, hs.1.mem_iff, List.mem_range]
  · rw [List.pairwise_reverse]
    refine hs.2.imp ?_
    intro a b hab
    simpa using hab
  · rw [List.nodup_reverse]; exact hs.1.nodup_iff.2 List.nodup_range

theorem marking_mem {fmat : FMat K} {m : Nat} {marks : List (Nat × Nat)} (hm : IsMarking (⟨0, 0⟩ : Tol K) fmat m marks)
    (r c : Nat) : (r, c) ∈ marks ↔
      r < fmat.length ∧ c < fmat.length ∧ ∃ obj, obj < m ∧ objVal fmat obj r < objVal fmat obj c := by
  obtain ⟨sorts, hs, hp⟩ := hm
  rw [hp.mem_iff, List.mem_flatMap]
  constructor
  · rintro ⟨obj, ho, hmem⟩
    have ho : obj < m := by simpa using ho
    have := (taskMarks_mem (hs obj ho) r c).1 hmem
    exact ⟨this.1, this.2.1, obj, ho, this.2.2⟩
  · rintro ⟨h1, h2, obj, ho, h3⟩
    exact ⟨obj, by simpa using ho, (taskMarks_mem (hs obj ho) r c).2 ⟨h1, h2, h3⟩⟩

theorem objVal_eq {fmat : FMat K} {m : Nat} (hm : IsMatrix m fmat) {i obj : Nat} (hi : i < fmat.length) (ho : obj < m) :
    objVal fmat obj i = (fmat.getD i [])[obj]'(by rw [row_length hm hi]; exact ho) := by
  unfold objVal
  rw [List.getD, List.getElem?_eq_getElem (by rw [row_length hm hi]; exact ho)]
  rfl

theorem marking_dom {fmat : FMat K} {m : Nat} (hmat : IsMatrix m fmat) {marks : List (Nat × Nat)}
    (hm : IsMarking (⟨0, 0⟩ : Tol K) fmat m marks) (r c : Nat) (hr : r < fmat.length) (hc : c < fmat.length) :
    (((r, c) ∉ marks ∧ ¬ ((r, c) ∉ marks ∧ (c, r) ∉ marks)) ↔ rowLess (⟨0, 0⟩ : Tol K) fmat c r = true) := by
  rw [rowLess_zero, rowDom, marking_mem hm, marking_mem hm]
  simp only [hr, hc, true_and]
  have lr := row_length hmat hr
  have lc := row_length hmat hc
  constructor
  · rintro ⟨h1, h2⟩
    have h3 : ∃ obj, obj < m ∧ objVal fmat obj c < objVal fmat obj r := by
      by_contra hno; exact h2 ⟨h1, hno⟩
    refine ⟨?_, ?_⟩
    · intro i hi1 hi2
      by_contra hlt
      refine h1 ⟨i, by omega, ?_⟩
      rw [objVal_eq hmat hr (by omega), objVal_eq hmat hc (by omega)]
      exact not_le.1 hlt
    · obtain ⟨obj, ho, hlt⟩ := h3
      rw [objVal_eq hmat hr ho, objVal_eq hmat hc ho] at hlt
      exact ⟨obj, by omega, by omega, hlt⟩
  · rintro ⟨h1, i, hi1, hi2, hlt⟩
    refine ⟨?_, ?_⟩
    · rintro ⟨obj, ho, hl⟩
      rw [objVal_eq hmat hr ho, objVal_eq hmat hc ho] at hl
      exact absurd hl (not_lt_of_ge (h1 obj (by omega) (by omega)))
    · rintro ⟨_, h3⟩
      refine h3 ⟨i, by omega, ?_⟩
      rw [objVal_eq hmat hr (by omega), objVal_eq hmat hc (by omega)]
      exact hlt

end Marks

/-! ### Bookkeeping -/

theorem frontsRanks_spec (els : List (Nat × Nat)) (hp : (els.map (·.1)).Perm (List.range els.length)) :
    ∃ rs, frontsRanks els = some rs ∧ rs.length = els.length ∧ ∀ i r, (i, r) ∈ els → rs[i]? = some r := by
  have hlt : ∀ e ∈ els, e.1 < els.length := fun e he => by
    have : e.1 ∈ els.map (·.1) := List.mem_map.2 ⟨e, he, rfl⟩
    rw [hp.mem_iff] at this; simpa using this
  have hn : (els.map (·.1)).Nodup := hp.nodup_iff.2 List.nodup_range
  unfold frontsRanks
  generalize els.length = n at *
  clear hp
  suffices ∀ (els : List (Nat × Nat)) (r0 : List Nat), r0.length = n → (∀ e ∈ els, e.1 < n) → (els.map (·.1)).Nodup →
      ∃ rs, els.foldlM (fun (r : List Nat) e => if e.1 < r.length then some (r.set e.1 e.2) else none) r0 = some rs ∧
        rs.length = n ∧ (∀ i r, (i, r) ∈ els → rs[i]? = some r) ∧ ∀ i, i ∉ els.map (·.1) → rs[i]? = r0[i]? by
    obtain ⟨rs, h1, h2, h3, _⟩ := this els (List.replicate n 0) (by simp) hlt hn
    exact ⟨rs, h1, h2, h3⟩
  intro els
  induction els with
  | nil => intro r0 hr _ _; exact ⟨r0, rfl, hr, by simp, by simp⟩
  | cons e els ih =>
    intro r0 hr hlt hn
    rw [List.map_cons, List.nodup_cons] at hn
    obtain ⟨rs, h1, h2, h3, h4⟩ := ih (r0.set e.1 e.2) (by simpa using hr) (fun x hx => hlt x (by simp [hx])) hn.2
    refine ⟨rs, ?_, h2, ?_, ?_⟩
    · rw [List.foldlM_cons, if_pos (by rw [hr]; exact hlt e (by simp))]
      exact h1
    · intro i r hm
      rcases List.mem_cons.1 hm with hm | hm
      · subst hm
        rw [h4 i hn.1]
        have := hlt (i, r) (by simp)
        dsimp only at this ⊢
        rw [List.getElem?_set_self (by omega)]
      · exact h3 i r hm
    · intro i hi
      rw [List.map_cons, List.mem_cons, not_or] at hi
      rw [h4 i hi.2, List.getElem?_set_ne (fun e => hi.1 e.symm)]

theorem frontsLoop_spec (first : Nat) (front rest : List (Nat × Nat)) (hne : front ≠ [] ∨ ∃ e t, rest = e :: t ∧ e.2 = first)
    (hf : ∀ e ∈ front, e.2 = first) (hs : (front ++ rest).Pairwise (fun a b => a.2 ≤ b.2)) :
    (frontsLoop first front rest).flatten = front ++ rest ∧
    (∀ g ∈ frontsLoop first front rest, g ≠ []) ∧
    (∀ g ∈ frontsLoop first front rest, ∀ a ∈ g, ∀ b ∈ g, a.2 = b.2) ∧
    (frontsLoop first front rest).Pairwise (fun g h => ∀ a ∈ g, ∀ b ∈ h, a.2 < b.2) := by
  induction rest generalizing first front with
  | nil =>
    rcases hne with hne | ⟨e, t, h, _⟩
    · simp only [frontsLoop, List.flatten_cons, List.flatten_nil, List.append_nil, List.mem_singleton, forall_eq]
      exact ⟨trivial, hne, fun a ha b hb => by rw [hf a ha, hf b hb], by simp⟩
    · cases h
  | cons e rest ih =>
    rw [frontsLoop]
    split
    · rename_i hr
      have hne : front ≠ [] := by
        rcases hne with hne | ⟨e', t, h, h'⟩
        · exact hne
        · cases h; exact absurd h' hr
      obtain ⟨i1, i2, i3, i4⟩ := ih e.2 [e] (Or.inl (by simp)) (by simp) ((List.pairwise_append.1 hs).2.1)
      refine ⟨?_, ?_, ?_, ?_⟩
      · rw [List.flatten_cons, i1]; simp
      · intro g hg
        rcases List.mem_cons.1 hg with rfl | hg
        · exact hne
        · exact i2 g hg
      · intro g hg
        rcases List.mem_cons.1 hg with rfl | hg
        · intro a ha b hb; rw [hf a ha, hf b hb]
        · exact i3 g hg
      · refine List.pairwise_cons.2 ⟨?_, i4⟩
        intro g hg a ha b hb
        have hbm : b ∈ e :: rest := by
          have : b ∈ (frontsLoop e.2 [e] rest).flatten := List.mem_flatten.2 ⟨g, hg, hb⟩
          rw [i1] at this; simpa using this
        have h1 : a.2 ≤ e.2 := (List.pairwise_append.1 hs).2.2 a ha e (by simp)
        have h2 : e.2 ≤ b.2 := by
          rcases List.mem_cons.1 hbm with rfl | hbm
          · exact Nat.le_refl _
          · exact (List.pairwise_cons.1 (List.pairwise_append.1 hs).2.1).1 b hbm
        have := hf a ha
        omega
    · rename_i hr
      have hr : e.2 = first := not_not.1 hr
      obtain ⟨i1, i2, i3, i4⟩ := ih first (front ++ [e]) (Or.inl (by simp)) (by
        intro x hx
        rcases List.mem_append.1 hx with hx | hx
        · exact hf x hx
        · rw [List.mem_singleton.1 hx]; exact hr) (by simpa using hs)
      exact ⟨by rw [i1]; simp, i2, i3, i4⟩

theorem sorted_rank_le {els : List (Nat × Nat)} (hs : els.Pairwise (fun a b => a.2 ≤ b.2)) {i j : Nat} (hij : i ≤ j)
    (hj : j < els.length) : (els[i]'(by omega)).2 ≤ els[j].2 := by
  rcases Nat.lt_or_eq_of_le hij with h | h
  · exact List.pairwise_iff_getElem.1 hs i j (by omega) hj h
  · subst h; exact Nat.le_refl _

theorem partialFront_spec (els : List (Nat × Nat)) (hs : els.Pairwise (fun a b => a.2 ≤ b.2)) (size : Nat) (h0 : 0 < size)
    (hn : size < els.length) :
    ∃ first last, partialFront els size = some (first, last) ∧ first ≤ size ∧ size ≤ last ∧ last ≤ els.length ∧
      (els[size - 1].2 ≠ els[size].2 → first = size ∧ last = size) ∧
      (els[size - 1].2 = els[size].2 → ∀ i (hi : i < els.length), (first ≤ i ∧ i < last) ↔ els[i].2 = els[size].2) := by
  have hsize1 : size - 1 < els.length := by omega
  set R := els[size].2 with hR
  set L := els[size - 1].2 with hL
  have hLR : L ≤ R := sorted_rank_le hs (by omega) hn
  set first := (els.take size).findIdx (fun e => e.2 == R) with hfirst
  set k := (els.drop (size - 1)).findIdx (fun e => e.2 != L) with hk
  have hcall : partialFront els size = some (first, size - 1 + k) := by
    unfold partialFront
    rw [if_pos ⟨h0, by omega⟩, if_neg (by omega), List.getElem?_eq_getElem hn, List.getElem?_eq_getElem hsize1]
    rfl
  have hflen : first ≤ size := by
    have := List.findIdx_le_length (xs := els.take size) (p := fun e => e.2 == R)
    rw [List.length_take] at this; omega
  have hklen : k ≤ els.length - (size - 1) := by
    have := List.findIdx_le_length (xs := els.drop (size - 1)) (p := fun e => e.2 != L)
    rw [List.length_drop] at this; omega
  -- before `first` no element has rank R
  have hbefore : ∀ i (hi : i < els.length), i < first → els[i].2 ≠ R := by
    intro i hi hif
    have := List.not_of_lt_findIdx (xs := els.take size) (p := fun e => e.2 == R) (i := i) (by rw [← hfirst]; exact hif)
    simpa using this
  have hatfirst : first < size → (els[first]'(by omega)).2 = R := by
    intro hlt
    have := List.findIdx_getElem (xs := els.take size) (p := fun e => e.2 == R) (w := by
      rw [← hfirst, List.length_take]; omega)
    rw [List.getElem_take, beq_iff_eq] at this
    exact this
  have hbetween : ∀ i (hi : i < els.length), size - 1 ≤ i → i < size - 1 + k → els[i].2 = L := by
    intro i hi h1 h2
    have := List.not_of_lt_findIdx (xs := els.drop (size - 1)) (p := fun e => e.2 != L) (i := i - (size - 1))
      (by rw [← hk]; omega)
    simp only [List.getElem_drop, bne_iff_ne, ne_eq, not_not] at this
    simpa [show size - 1 + (i - (size - 1)) = i by omega] using this
  have hatlast : ∀ (hlt : size - 1 + k < els.length), (els[size - 1 + k]'hlt).2 ≠ L := by
    intro hlt
    have := List.findIdx_getElem (xs := els.drop (size - 1)) (p := fun e => e.2 != L) (w := by
      rw [← hk, List.length_drop]; omega)
    simpa using this
  have hkpos : 0 < k := by
    rcases Nat.eq_zero_or_pos k with h | h
    · exfalso
      have := hatlast (by omega)
      simp only [h, Nat.add_zero] at this
      exact this rfl
    · exact h
  refine ⟨first, size - 1 + k, hcall, hflen, by omega, by omega, ?_, ?_⟩
  · intro hne
    refine ⟨?_, ?_⟩
    · by_contra hc
      have h1 := hatfirst (by omega)
      have h2 := sorted_rank_le hs (i := first) (j := size - 1) (by omega) (by omega)
      omega
    · by_contra hc
      have h1 := hbetween size hn (by omega) (by omega)
      omega
  · intro he i hi
    constructor
    · rintro ⟨h1, h2⟩
      by_cases hc : i < size
      · have g1 := hatfirst (by omega)
        have g2 := sorted_rank_le hs (i := first) (j := i) h1 hi
        have g3 := sorted_rank_le hs (i := i) (j := size) (by omega) hn
        omega
      · rw [hbetween i hi (by omega) h2, he]
    · intro hr
      refine ⟨?_, ?_⟩
      · by_contra hc
        exact hbefore i hi (by omega) hr
      · by_contra hc
        have g1 := hatlast (by omega)
        have g2 := sorted_rank_le hs (i := size - 1) (j := size - 1 + k) (by omega) (by omega)
        have g3 := sorted_rank_le hs (i := size - 1 + k) (j := i) (by omega) hi
        omega

end Gapp.Model
