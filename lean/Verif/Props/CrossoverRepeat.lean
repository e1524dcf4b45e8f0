import Verif.Props.Crossover
/-!
# Crossovers with several points are repeated single-point crossovers (C12)

crossover/binary.hpp:40-43 and 62-65: "effectively the same as performing N consecutive single-point crossovers on the parents".
-/

namespace Gapp.Props
open Gapp.Model Gapp.Spec
variable {α : Type}

/-- Exchanging twice. -/
theorem exchanged_trans {p1 p2 c1 c2 d1 d2 : List α} {X Y : Nat → Prop} (hl : p1.length = p2.length) (h : Exchanged p1 p2 X c1 c2) (h' : Exchanged c1 c2 Y d1 d2) :
    Exchanged p1 p2 (fun i => ¬ (X i ↔ Y i)) d1 d2 where
  length1 := h'.length1.trans h.length1
  length2 := h'.length2.trans h.length2
  exchanged := fun i hi hx => by
    have hi' : i < c1.length := by rw [h.length1]; exact hi
    by_cases h1 : X i
    · have h2 : ¬ Y i := fun h2 => hx ⟨fun _ => h2, fun _ => h1⟩
      rw [(h'.kept i hi' h2).1, (h'.kept i hi' h2).2]
      exact h.exchanged i hi h1
    · have h2 : Y i := by by_contra h2; exact hx ⟨fun h => absurd h h1, fun h => absurd h h2⟩
      rw [(h'.exchanged i hi' h2).1, (h'.exchanged i hi' h2).2]
      exact ⟨(h.kept i hi h1).2, (h.kept i hi h1).1⟩
  kept := fun i hi hx => by
    have hi' : i < c1.length := by rw [h.length1]; exact hi
    have hx : X i ↔ Y i := not_not.mp hx
    by_cases h1 : X i
    · have h2 := hx.mp h1
      rw [(h'.exchanged i hi' h2).1, (h'.exchanged i hi' h2).2]
      exact ⟨(h.exchanged i hi h1).2, (h.exchanged i hi h1).1⟩
    · have h2 : ¬ Y i := fun h2 => h1 (hx.mpr h2)
      rw [(h'.kept i hi' h2).1, (h'.kept i hi' h2).2]
      exact h.kept i hi h1

/-- Single-point crossovers at the given points, one after the other: each one recombines the two children of the one before. -/
def repeatedSinglePoint (p1 p2 : List α) (points : List Nat) : Option (List α × List α) :=
  points.foldlM (fun c point => singlePointCrossover c.1 c.2 point) (p1, p2)

theorem repeated_spec : ∀ (points : List Nat) (p1 p2 : List α), p1.length = p2.length → (∀ p ∈ points, p ≤ p1.length) →
    ∃ c1 c2, repeatedSinglePoint p1 p2 points = some (c1, c2) ∧ Exchanged p1 p2 (fun i => points.countP (fun p => decide (i < p)) % 2 = 1) c1 c2
  | [], p1, p2, _, _ => ⟨p1, p2, rfl, ⟨rfl, rfl, fun i _ h => by simp at h, fun i _ _ => ⟨rfl, rfl⟩⟩⟩
  | point :: rest, p1, p2, hl, hp => by
      obtain ⟨c1, c2, h1, h2⟩ := C12_single_point p1 p2 hl point (hp point (by simp))
      have h2 : Exchanged p1 p2 (fun i => i < point) c1 c2 := by
        refine Exchanged.congr (Exchanged.swap hl.symm h2) ?_
        intro i _
        simp only [pointsUpTo, List.countP_cons, List.countP_nil, decide_eq_true_eq]
        split <;> omega
      have hc : c1.length = c2.length := by rw [h2.length1, h2.length2, hl]
      obtain ⟨d1, d2, e1, e2⟩ := repeated_spec rest c1 c2 hc (fun p h => by rw [h2.length1]; exact hp p (by simp [h]))
      refine ⟨d1, d2, ?_, Exchanged.congr (exchanged_trans hl h2 e2) ?_⟩
      · unfold repeatedSinglePoint at e1 ⊢
        rw [List.foldlM_cons, h1]
        exact e1
      · intro i _
        simp only [List.countP_cons, decide_eq_true_eq]
        split <;> omega

/-- C12: an n-point crossover does the same as single-point crossovers at the same points, one after the other in any order. (With an even number of points the children are returned in the
other order.) -/
theorem C12_npoint_repeated (p1 p2 : List α) (hl : p1.length = p2.length) (points order : List Nat) (ho : order.Perm points) (hp : ∀ p ∈ points, p ≤ p1.length) :
    ∃ c1 c2, nPointCrossover p1 p2 points = some (c1, c2) ∧ repeatedSinglePoint p1 p2 order = some (if points.length % 2 = 1 then (c1, c2) else (c2, c1)) := by
  obtain ⟨c1, c2, h1, h2⟩ := C12_npoint p1 p2 hl points hp
  obtain ⟨d1, d2, e1, e2⟩ := repeated_spec order p1 p2 hl (fun p h => hp p (ho.subset h))
  refine ⟨c1, c2, h1, ?_⟩
  rw [e1]
  have hsum : ∀ i, points.countP (fun p => decide (i < p)) + pointsUpTo points i = points.length := by
    intro i
    have := List.length_eq_countP_add_countP (fun p => decide (i < p)) (l := points)
    rw [this]
    congr 1
    unfold pointsUpTo
    apply List.countP_congr
    intro p _
    simp
  have e2' : Exchanged p1 p2 (fun i => points.countP (fun p => decide (i < p)) % 2 = 1) d1 d2 := by
    refine Exchanged.congr e2 ?_
    intro i _
    rw [ho.countP_eq]
  split
  · rename_i hodd
    have := exchanged_unique hl (Exchanged.congr (Exchanged.swap hl.symm h2) (fun i _ => by have := hsum i; show _ ↔ points.countP (fun p => decide (i < p)) % 2 = 1; omega)) e2'
    rw [this.1, this.2]
  · rename_i hev
    have hsw : Exchanged p1 p2 (fun i => points.countP (fun p => decide (i < p)) % 2 = 1) c2 c1 := by
      refine ⟨h2.length2, h2.length1, fun i hi hx => ?_, fun i hi hx => ?_⟩
      · have := h2.exchanged i (by omega) (by have := hsum i; show pointsUpTo points i % 2 = 1; omega)
        exact ⟨this.2, this.1⟩
      · have := h2.kept i (by omega) (by have := hsum i; show ¬ pointsUpTo points i % 2 = 1; omega)
        exact ⟨this.2, this.1⟩
    have := exchanged_unique hl hsw e2'
    rw [this.1, this.2]

/-- C12: a two-point crossover does the same as two single-point crossovers, one after the other. -/
theorem C12_two_point_repeated (p1 p2 : List α) (hl : p1.length = p2.length) (a b : Nat) (ha : a ≤ p1.length) (hb : b ≤ p1.length) :
    twoPointCrossover p1 p2 (a, b) = repeatedSinglePoint p1 p2 [a, b] ∧ (repeatedSinglePoint p1 p2 [a, b]).isSome = true := by
  obtain ⟨c1, c2, h1, h2⟩ := C12_two_point p1 p2 hl a b ha hb
  obtain ⟨d1, d2, e1, e2⟩ := repeated_spec [a, b] p1 p2 hl (by simp [ha, hb])
  refine ⟨?_, by rw [e1]; rfl⟩
  rw [h1, e1]
  have := exchanged_unique hl (Exchanged.congr h2 (fun i _ => by
    simp only [pointsUpTo, List.countP_cons, List.countP_nil, decide_eq_true_eq]
    split <;> split <;> split <;> split <;> omega)) e2
  rw [this.1, this.2]

example : nPointCrossover [0, 0, 0, 0, 0] [1, 1, 1, 1, 1] [4, 1, 3] = some ([1, 0, 0, 1, 0], [0, 1, 1, 0, 1]) := by
  simp [nPointCrossover, preparePoints, List.mergeSort, List.MergeSort.Internal.splitInTwo, List.merge]
  decide
example : repeatedSinglePoint [0, 0, 0, 0, 0] [1, 1, 1, 1, 1] [1, 3, 4] = some ([1, 0, 0, 1, 0], [0, 1, 1, 0, 1]) := by decide
example : [1, 3, 4].Perm [4, 1, 3] ∧ ∀ p ∈ [4, 1, 3], p ≤ [0, 0, 0, 0, 0].length := by decide

end Gapp.Props
