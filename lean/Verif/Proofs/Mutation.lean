import Verif.Model.Mutation
import Verif.Spec.Mutation
import Verif.Props.Sample
import Mathlib.Data.List.Perm.Basic
import Mathlib.Tactic.Linarith
/-! Lemmas about the mutation methods. -/

namespace Gapp.Model
open Gapp.Spec Gapp.Props
variable {α : Type}

/-- The draws made by `sampleUnique(0, n, count)` are legal. -/
def SampleDraws (n count : Nat) (selectMany : Bool) (draws : List Int) : Prop :=
  draws.length = sampleDraws 0 n count selectMany ∧ DrawsFrom 0 (firstLimit 0 n count selectMany) draws

theorem sampleIndices_ok {n count : Nat} (hc : count ≤ n) {selectMany : Bool} {draws : List Int} (hd : SampleDraws n count selectMany draws) :
    ∃ idxs, sampleIndices n count selectMany draws = some idxs ∧ idxs.length = count ∧ (∀ i ∈ idxs, i < n) ∧ (n < 65536 → idxs.Nodup) := by
  obtain ⟨hl, hd⟩ := hd
  rcases Nat.lt_or_ge n 65536 with hn | hn
  · obtain ⟨numbers, h1, h2, h3, h4⟩ := C35_sample_unique_partial 0 n count (by omega) (by omega) selectMany draws hl hd
    refine ⟨numbers.map Int.toNat, ?_, by rw [List.length_map, h2], ?_, ?_⟩
    · simp only [sampleIndices, hc, if_true, h1, Option.map_some]
    · intro i hi
      obtain ⟨x, hx, rfl⟩ := List.mem_map.mp hi
      have := h4 x hx
      omega
    · intro _
      apply List.Nodup.map_on _ h3
      intro x hx y hy hxy
      have := h4 x hx
      have := h4 y hy
      omega
  · have hs : sampleDraws 0 n count selectMany = count := by
      simp only [sampleDraws]; rw [if_pos]; left; omega
    rw [hs] at hl
    rw [firstLimit, hs] at hd
    obtain ⟨numbers, h1, h2, h3⟩ := C35_huge_range_in_bounds_partial 0 n count (by omega) (by omega) selectMany draws hl hd
    refine ⟨numbers.map Int.toNat, ?_, by rw [List.length_map, h2], ?_, ?_⟩
    · simp only [sampleIndices, hc, if_true, h1, Option.map_some]
    · intro i hi
      obtain ⟨x, hx, rfl⟩ := List.mem_map.mp hi
      have := h3 x hx
      omega
    · intro h; omega

/-! ### Ranges -/

theorem split3 (l : List α) (a b : Nat) (h : a ≤ b) : l = l.take a ++ (l.take b).drop a ++ l.drop b := by
  have h1 : (l.take b).take a = l.take a := by rw [List.take_take, Nat.min_eq_left h]
  rw [← h1, List.take_append_drop, List.take_append_drop]

theorem reverseRange_ok {l : List α} {first last : Nat} (h1 : first ≤ last) (h2 : last ≤ l.length) :
    ∃ c, reverseRange l first last = some c ∧ c.Perm l ∧ RangeReversed l first (last - first) c := by
  refine ⟨l.take first ++ ((l.take last).drop first).reverse ++ l.drop last, by simp [reverseRange, h1, h2], ?_, ?_⟩
  · conv_rhs => rw [split3 l first last h1]
    exact List.Perm.append_right _ (List.Perm.append_left _ (List.reverse_perm _))
  · have hlen : ((l.take last).drop first).length = last - first := by simp; omega
    refine ⟨by simp; omega, ?_, ?_⟩
    · intro i hi
      rcases hi with hi | hi
      · rw [List.append_assoc, List.getElem?_append_left (by simp; omega), List.getElem?_take_of_lt hi]
      · have : first + (last - first) = last := by omega
        rw [this] at hi
        rw [List.getElem?_append_right (by simp; omega), List.getElem?_drop]
        congr 1
        simp
        omega
    · intro i hi
      rw [List.append_assoc, List.getElem?_append_right (by simp)]
      have e : first + i - (l.take first).length = i := by simp; omega
      rw [e, List.getElem?_append_left (by rw [List.length_reverse, hlen]; exact hi), List.getElem?_reverse (by rw [hlen]; exact hi), hlen,
        List.getElem?_drop, List.getElem?_take_of_lt (by omega)]

theorem rotateRange_ok {l : List α} {first middle last : Nat} (h1 : first ≤ middle) (h2 : middle ≤ last) (h3 : last ≤ l.length) :
    rotateRange l first middle last = some (l.take first ++ (l.take last).drop middle ++ (l.take middle).drop first ++ l.drop last) := by
  simp [rotateRange, h1, h2, h3]

theorem split4 (l : List α) (a b c : Nat) (h1 : a ≤ b) (h2 : b ≤ c) :
    l = l.take a ++ (l.take b).drop a ++ (l.take c).drop b ++ l.drop c := by
  have e1 : l.take c = l.take b ++ (l.take c).drop b := by
    conv_lhs => rw [← List.take_append_drop b (l.take c), List.take_take, Nat.min_eq_left h2]
  have e2 : l.take b = l.take a ++ (l.take b).drop a := by
    conv_lhs => rw [← List.take_append_drop a (l.take b), List.take_take, Nat.min_eq_left h1]
  rw [← e2, ← e1, List.take_append_drop]

theorem swap?_ok {l : List α} {i j : Nat} (hi : i < l.length) (hj : j < l.length) :
    ∃ c, swap? l i j = some c ∧ SwappedAt l i j c := by
  have e1 : l[i]? = some l[i] := List.getElem?_eq_getElem hi
  have e2 : l[j]? = some l[j] := List.getElem?_eq_getElem hj
  refine ⟨(l.set i l[j]).set j l[i], by simp only [swap?, e1, e2, Option.bind_eq_bind, Option.bind_some, Option.pure_def], by simp, ?_, ?_, ?_⟩
  · rw [List.getElem?_set, List.getElem?_set, e2]
    by_cases hij : j = i
    · subst hij; simp [hi]
    · simp [hij, hi]
  · rw [List.getElem?_set, e1]; simp [hj]
  · intro k h1 h2
    rw [List.getElem?_set_ne (Ne.symm h2), List.getElem?_set_ne (Ne.symm h1)]

/-- A list with the genes at two places exchanged is a permutation. -/
theorem SwappedAt.perm {l c : List α} {i j : Nat} (hi : i < l.length) (hj : j < l.length) (h : SwappedAt l i j c) : c.Perm l := by
  obtain ⟨h0, h1, h2, h3⟩ := h
  have hc : c = (l.set i l[j]).set j l[i] := by
    have e1 : l[i]? = some l[i] := List.getElem?_eq_getElem hi
    have e2 : l[j]? = some l[j] := List.getElem?_eq_getElem hj
    apply List.ext_getElem?
    intro k
    rw [List.getElem?_set, List.getElem?_set]
    by_cases hk : j = k
    · subst hk; simp [hj, h2, e1]
    · by_cases hk' : i = k
      · subst hk'; simp [hi, h1, hk, e2]
      · simp only [hk, hk', if_false]; exact h3 k (Ne.symm hk') (Ne.symm hk)
  rw [hc]
  exact List.set_set_perm hi hj

/-! ### Changing genes at sampled loci -/

theorem updateAt_partial {β : Type} {f : Nat → β → α → Option α} (P : Nat → α → Prop) : ∀ (pairs : List (Nat × β)) (l c : List α),
    updateAt f pairs l = some c →
    (∀ idx d g g', (idx, d) ∈ pairs → P idx g → f idx d g = some g' → P idx g') →
    (∀ i g, l[i]? = some g → P i g) →
    DifferOnlyAt l c (pairs.map Prod.fst) ∧ ∀ i g, c[i]? = some g → P i g := by
  intro pairs
  induction pairs with
  | nil =>
    intro l c h _ hl
    simp only [updateAt, Option.some.injEq] at h
    subst h
    exact ⟨⟨rfl, fun _ _ => rfl⟩, hl⟩
  | cons p pairs ih =>
    obtain ⟨idx, d⟩ := p
    intro l c h hf hl
    simp only [updateAt, Option.bind_eq_bind, Option.bind_eq_some_iff] at h
    obtain ⟨g, hg, g', hg', h⟩ := h
    have hP' := hf idx d g g' (by simp) (hl idx g hg) hg'
    have hlt : idx < l.length := (List.getElem?_eq_some_iff.mp hg).1
    obtain ⟨⟨h1, h2⟩, h3⟩ := ih (l.set idx g') c h (fun i d g g' hm => hf i d g g' (by simp [hm])) (by
      intro i x hx
      rw [List.getElem?_set] at hx
      by_cases hi : idx = i
      · subst hi
        simp only [if_true, hlt] at hx
        cases hx; exact hP'
      · simp only [hi, if_false] at hx
        exact hl i x hx)
    refine ⟨⟨by rw [h1, List.length_set], ?_⟩, h3⟩
    intro i hi
    simp only [List.map_cons, List.mem_cons, not_or] at hi
    rw [h2 i hi.2, List.getElem?_set_ne (Ne.symm hi.1)]

theorem updateAt_total {β : Type} {f : Nat → β → α → Option α} : ∀ (pairs : List (Nat × β)) (l : List α),
    (∀ p ∈ pairs, p.1 < l.length) → (∀ idx d g, (idx, d) ∈ pairs → (f idx d g).isSome) → ∃ c, updateAt f pairs l = some c := by
  intro pairs
  induction pairs with
  | nil => intro l _ _; exact ⟨l, rfl⟩
  | cons p pairs ih =>
    obtain ⟨idx, d⟩ := p
    intro l h1 h2
    have hlt : idx < l.length := h1 (idx, d) (by simp)
    obtain ⟨g', hg'⟩ := Option.isSome_iff_exists.mp (h2 idx d l[idx] (by simp))
    obtain ⟨c, hc⟩ := ih (l.set idx g') (fun p hp => by rw [List.length_set]; exact h1 p (by simp [hp]))
      (fun i d g hm => h2 i d g (by simp [hm]))
    refine ⟨c, ?_⟩
    simp only [updateAt, List.getElem?_eq_getElem hlt, Option.bind_eq_bind, Option.bind_some, hg', hc]

/-- When the loci are distinct each of them gets the new gene computed from the old one. -/
theorem updateAt_nodup {β : Type} {f : Nat → β → α → Option α} : ∀ (pairs : List (Nat × β)) (l c : List α),
    updateAt f pairs l = some c → (pairs.map Prod.fst).Nodup →
    ∀ idx d, (idx, d) ∈ pairs → ∃ g g', l[idx]? = some g ∧ f idx d g = some g' ∧ c[idx]? = some g' := by
  intro pairs
  induction pairs with
  | nil => intro l c _ _ idx d h; simp at h
  | cons p pairs ih =>
    obtain ⟨i0, d0⟩ := p
    intro l c h hn idx d hm
    simp only [updateAt, Option.bind_eq_bind, Option.bind_eq_some_iff] at h
    obtain ⟨g, hg, g', hg', h⟩ := h
    rw [List.map_cons, List.nodup_cons] at hn
    have hlt : i0 < l.length := (List.getElem?_eq_some_iff.mp hg).1
    rcases List.mem_cons.mp hm with he | hm
    · cases he
      refine ⟨g, g', hg, hg', ?_⟩
      have := (updateAt_partial (fun _ _ => True) pairs _ c h (by simp) (by simp)).1.2 _ hn.1
      rw [this, List.getElem?_set_self hlt]
    · obtain ⟨x, x', hx, hx', hc⟩ := ih _ c h hn.2 idx d hm
      refine ⟨x, x', ?_, hx', hc⟩
      have hne : i0 ≠ idx := by
        intro e; subst e
        exact hn.1 (List.mem_map.mpr ⟨_, hm, rfl⟩)
      rwa [List.getElem?_set_ne hne] at hx

theorem updateAt_nodup_total {β : Type} {f : Nat → β → α → Option α} : ∀ (pairs : List (Nat × β)) (l : List α),
    (pairs.map Prod.fst).Nodup → (∀ idx d, (idx, d) ∈ pairs → ∃ g, l[idx]? = some g ∧ (f idx d g).isSome) →
    ∃ c, updateAt f pairs l = some c := by
  intro pairs
  induction pairs with
  | nil => intro l _ _; exact ⟨l, rfl⟩
  | cons p pairs ih =>
    obtain ⟨i0, d0⟩ := p
    intro l hn h
    rw [List.map_cons, List.nodup_cons] at hn
    obtain ⟨g, hg, hf⟩ := h i0 d0 (by simp)
    obtain ⟨g', hg'⟩ := Option.isSome_iff_exists.mp hf
    obtain ⟨c, hc⟩ := ih (l.set i0 g') hn.2 (by
      intro idx d hm
      obtain ⟨x, hx, hfx⟩ := h idx d (by simp [hm])
      have hne : i0 ≠ idx := by
        intro e; subst e
        exact hn.1 (List.mem_map.mpr ⟨_, hm, rfl⟩)
      exact ⟨x, by rw [List.getElem?_set_ne hne]; exact hx, hfx⟩)
    exact ⟨c, by simp only [updateAt, hg, Option.bind_eq_bind, Option.bind_some, hg', hc]⟩

theorem stdClamp_bounds {K : Type} [LinearOrder K] [Field K] (v lo hi : K) (h : lo ≤ hi) : lo ≤ stdClamp v lo hi ∧ stdClamp v lo hi ≤ hi := by
  unfold stdClamp
  split
  · exact ⟨_root_.le_refl _, h⟩
  · next h1 =>
    split
    · exact ⟨h, _root_.le_refl _⟩
    · next h2 => exact ⟨not_lt.mp h1, not_lt.mp h2⟩

theorem stdClamp_eq {K : Type} [LinearOrder K] [Field K] (v lo hi : K) (h1 : lo ≤ v) (h2 : v ≤ hi) : stdClamp v lo hi = v := by
  simp [stdClamp, not_lt.mpr h1, not_lt.mpr h2]

end Gapp.Model
