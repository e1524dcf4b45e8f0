import Verif.Model.Crossover
import Verif.Spec.Crossover
import Mathlib.Data.List.Count
import Mathlib.Data.List.Nodup
/-! Proofs about the point-wise crossovers. -/

namespace Gapp.Model
open Gapp.Spec
variable {α : Type}

/-- The result of exchanging loci, as a function of the parity of the number of exchanges at each locus. -/
theorem swapLoci_spec {p1 p2 : List α} (hlen : p1.length = p2.length) :
    ∀ (idxs : List Nat) (X : Nat → Prop) (c : List α × List α), Exchanged p1 p2 X c.1 c.2 → (∀ i ∈ idxs, i < p1.length) →
      ∃ c', swapLoci c idxs = some c' ∧
        Exchanged p1 p2 (fun i => if idxs.count i % 2 = 1 then ¬ X i else X i) c'.1 c'.2 := by
  intro idxs
  induction idxs with
  | nil => intro X c h _; exact ⟨c, rfl, by simpa using h⟩
  | cons a rest ih =>
    intro X c h hr
    have ha : a < p1.length := hr a List.mem_cons_self
    have h1 : a < c.1.length := by rw [h.length1]; exact ha
    have h2 : a < c.2.length := by rw [h.length2]; omega
    have hs : swapLocus c a = some (c.1.set a c.2[a], c.2.set a c.1[a]) := by
      simp [swapLocus, List.getElem?_eq_getElem h1, List.getElem?_eq_getElem h2]
    have e1 : c.1[a]? = some c.1[a] := List.getElem?_eq_getElem h1
    have e2 : c.2[a]? = some c.2[a] := List.getElem?_eq_getElem h2
    have hX : Exchanged p1 p2 (fun i => if i = a then ¬ X i else X i) (c.1.set a c.2[a]) (c.2.set a c.1[a]) := by
      refine ⟨by simp [h.length1], by simp [h.length2], ?_, ?_⟩
      · intro i hi hx
        by_cases hia : i = a
        · subst hia
          simp only [if_true] at hx
          have := h.kept i hi hx
          rw [List.getElem?_set_self h1, List.getElem?_set_self h2, ← e1, ← e2]
          exact ⟨this.2, this.1⟩
        · simp only [hia, if_false] at hx
          rw [List.getElem?_set_ne (Ne.symm hia), List.getElem?_set_ne (Ne.symm hia)]
          exact h.exchanged i hi hx
      · intro i hi hx
        by_cases hia : i = a
        · subst hia
          simp only [if_true, Classical.not_not] at hx
          have := h.exchanged i hi hx
          rw [List.getElem?_set_self h1, List.getElem?_set_self h2, ← e1, ← e2]
          exact ⟨this.2, this.1⟩
        · simp only [hia, if_false] at hx
          rw [List.getElem?_set_ne (Ne.symm hia), List.getElem?_set_ne (Ne.symm hia)]
          exact h.kept i hi hx
    obtain ⟨c', hc', he⟩ := ih _ (_, _) hX (fun i hi => hr i (List.mem_cons_of_mem _ hi))
    refine ⟨c', ?_, ?_⟩
    · simp only [swapLoci, List.foldlM_cons, hs]
      exact hc'
    · have : (fun i => if (a :: rest).count i % 2 = 1 then ¬ X i else X i) =
          fun i => if rest.count i % 2 = 1 then ¬ (if i = a then ¬ X i else X i) else (if i = a then ¬ X i else X i) := by
        funext i
        by_cases hia : i = a
        · subst hia
          simp only [List.count_cons_self, if_true, Classical.not_not]
          by_cases hp : rest.count i % 2 = 1
          · rw [if_pos hp, if_neg (by omega)]
          · rw [if_neg hp, if_pos (by omega)]
        · rw [List.count_cons_of_ne (Ne.symm hia)]
          simp [hia]
      rw [this]; exact he

theorem Exchanged.refl (p1 p2 : List α) : Exchanged p1 p2 (fun _ => False) p1 p2 :=
  ⟨rfl, rfl, fun _ _ h => h.elim, fun _ _ _ => ⟨rfl, rfl⟩⟩

theorem Exchanged.congr {p1 p2 c1 c2 : List α} {X Y : Nat → Prop} (h : Exchanged p1 p2 X c1 c2)
    (hXY : ∀ i, i < p1.length → (X i ↔ Y i)) : Exchanged p1 p2 Y c1 c2 :=
  ⟨h.length1, h.length2, fun i hi hy => h.exchanged i hi ((hXY i hi).2 hy),
    fun i hi hy => h.kept i hi (fun hx => hy ((hXY i hi).1 hx))⟩

theorem Exchanged.swap {p1 p2 c1 c2 : List α} {X : Nat → Prop} (hlen : p1.length = p2.length) (h : Exchanged p1 p2 X c1 c2) :
    Exchanged p2 p1 (fun i => ¬ X i) c1 c2 :=
  ⟨by rw [h.length1, hlen], by rw [h.length2, hlen], fun i hi hy => h.kept i (by omega) hy,
    fun i hi hy => h.exchanged i (by omega) (Classical.not_not.1 hy)⟩

/-- Exchanging each of a set of different loci. -/
theorem swapLoci_nodup {p1 p2 : List α} (hlen : p1.length = p2.length) (idxs : List Nat) (hn : idxs.Nodup)
    (hr : ∀ i ∈ idxs, i < p1.length) :
    ∃ c, swapLoci (p1, p2) idxs = some c ∧ Exchanged p1 p2 (fun i => i ∈ idxs) c.1 c.2 := by
  obtain ⟨c, hc, he⟩ := swapLoci_spec hlen idxs _ (p1, p2) (Exchanged.refl p1 p2) hr
  refine ⟨c, hc, Exchanged.congr he ?_⟩
  intro i _
  by_cases h : i ∈ idxs
  · simp [h, List.count_eq_one_of_mem hn h]
  · simp [h, List.count_eq_zero_of_not_mem h]

theorem count_range' (a n i : Nat) : (List.range' a n).count i = if a ≤ i ∧ i < a + n then 1 else 0 := by
  split
  · next h =>
    exact List.count_eq_one_of_mem List.nodup_range' (by rw [List.mem_range'_1]; exact h)
  · next h =>
    exact List.count_eq_zero_of_not_mem (by rw [List.mem_range'_1]; exact h)

theorem foldlM_flatMap {β : Type} (f : β → Nat → Option β) (g : Nat × Nat → List Nat) :
    ∀ (l : List (Nat × Nat)) (b : β), l.foldlM (fun b p => (g p).foldlM f b) b = (l.flatMap g).foldlM f b := by
  intro l
  induction l with
  | nil => intro b; rfl
  | cons a l ih =>
    intro b
    simp only [List.foldlM_cons, List.flatMap_cons, List.foldlM_append, ih]

/-- The parity of the exchanges made by n-point crossover: for sorted points of even number. -/
theorem count_pairs (i : Nat) : ∀ (k : Nat) (pts : List Nat), pts.length = 2 * k → pts.Pairwise (· ≤ ·) →
    ((pointPairs pts).flatMap (fun p => List.range' p.1 (p.2 - p.1))).count i % 2 = pointsUpTo pts i % 2 := by
  intro k
  induction k with
  | zero =>
    intro pts hl _
    have : pts = [] := List.length_eq_zero_iff.1 (by omega)
    subst this; rfl
  | succ k ih =>
    intro pts hl hs
    match pts, hl, hs with
    | a :: b :: rest, hl, hs =>
      have hrest := ih rest (by simp at hl; omega) (by simp [List.pairwise_cons] at hs; exact hs.2.2)
      have hab : a ≤ b := by simp [List.pairwise_cons] at hs; exact hs.1.1
      simp only [pointPairs, List.flatMap_cons, List.count_append, count_range']
      simp only [pointsUpTo, List.countP_cons]
      rw [show rest.countP (fun p => decide (p ≤ i)) = pointsUpTo rest i from rfl]
      have : (if a ≤ i ∧ i < a + (b - a) then 1 else 0) % 2 =
          ((if decide (b ≤ i) = true then 1 else 0) + (if decide (a ≤ i) = true then 1 else 0)) % 2 := by
        simp only [decide_eq_true_eq]
        split <;> split <;> split <;> omega
      omega

theorem pointPairs_mem : ∀ (k : Nat) (pts : List Nat), pts.length = 2 * k → ∀ p ∈ pointPairs pts, p.1 ∈ pts ∧ p.2 ∈ pts := by
  intro k
  induction k with
  | zero =>
    intro pts hl
    have : pts = [] := List.length_eq_zero_iff.1 (by omega)
    subst this; simp [pointPairs]
  | succ k ih =>
    intro pts hl
    match pts, hl with
    | a :: b :: rest, hl =>
      intro p hp
      simp only [pointPairs, List.mem_cons] at hp
      rcases hp with rfl | hp
      · simp
      · have := ih rest (by simp at hl; omega) p hp
        exact ⟨List.mem_cons_of_mem _ (List.mem_cons_of_mem _ this.1), List.mem_cons_of_mem _ (List.mem_cons_of_mem _ this.2)⟩

theorem preparePoints_spec (n : Nat) (points : List Nat) (hp : ∀ p ∈ points, p ≤ n) :
    (∃ k, (preparePoints n points).length = 2 * k) ∧ (preparePoints n points).Pairwise (· ≤ ·) ∧
    (∀ p ∈ preparePoints n points, p ≤ n) ∧ ∀ i, i < n → pointsUpTo (preparePoints n points) i = pointsUpTo points i := by
  have hperm : points.mergeSort.Perm points := List.mergeSort_perm _ _
  have hsort : points.mergeSort.Pairwise (· ≤ ·) := by
    have := List.pairwise_mergeSort (le := fun a b => decide (a ≤ b)) (by intro a b c h1 h2; simp at *; omega)
      (by intro a b; simp; omega) points
    exact this.imp (by intro a b h; simpa using h)
  have hmem : ∀ p ∈ points.mergeSort, p ≤ n := fun p h => hp p (hperm.mem_iff.1 h)
  unfold preparePoints
  by_cases ho : points.mergeSort.length % 2 = 1
  · simp only [ho, if_true]
    refine ⟨⟨(points.mergeSort.length + 1) / 2, by rw [List.length_append]; simp only [List.length_singleton]; omega⟩, ?_, ?_, ?_⟩
    · rw [List.pairwise_append]
      exact ⟨hsort, List.pairwise_singleton _ _, by intro a ha b hb; rw [List.mem_singleton] at hb; subst hb; exact hmem a ha⟩
    · intro p h
      rw [List.mem_append, List.mem_singleton] at h
      rcases h with h | h
      · exact hmem p h
      · omega
    · intro i hi
      simp only [pointsUpTo, List.countP_append]
      rw [hperm.countP_eq]
      simp [Nat.not_le.2 hi]
  · simp only [ho, if_false]
    exact ⟨⟨points.mergeSort.length / 2, by omega⟩, hsort, hmem, fun i _ => hperm.countP_eq _⟩

theorem nPoint_spec {p1 p2 : List α} (hlen : p1.length = p2.length) (points : List Nat) (hp : ∀ p ∈ points, p ≤ p1.length) :
    ∃ c, nPointCrossover p1 p2 points = some c ∧
      Exchanged p2 p1 (fun i => pointsUpTo points i % 2 = 1) c.1 c.2 := by
  obtain ⟨⟨k, hk⟩, hs, hle, hcount⟩ := preparePoints_spec p1.length points hp
  have hfold : nPointCrossover p1 p2 points =
      swapLoci (p2, p1) ((pointPairs (preparePoints p1.length points)).flatMap (fun p => List.range' p.1 (p.2 - p.1))) :=
    foldlM_flatMap swapLocus (fun p => List.range' p.1 (p.2 - p.1)) _ _
  rw [hfold]
  obtain ⟨c, hc, he⟩ := swapLoci_spec (p1 := p2) (p2 := p1) hlen.symm
    ((pointPairs (preparePoints p1.length points)).flatMap (fun p => List.range' p.1 (p.2 - p.1))) _ (p2, p1)
    (Exchanged.refl p2 p1) (by
      intro i hi
      rw [List.mem_flatMap] at hi
      obtain ⟨p, hp', hi⟩ := hi
      rw [List.mem_range'_1] at hi
      have := hle p.2 (pointPairs_mem k _ hk p hp').2
      omega)
  refine ⟨c, hc, Exchanged.congr he ?_⟩
  intro i hi
  rw [count_pairs i k _ hk hs, hcount i (by omega)]
  by_cases h : pointsUpTo points i % 2 = 1 <;> simp [h]

end Gapp.Model
