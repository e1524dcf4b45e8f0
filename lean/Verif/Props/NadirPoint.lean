import Verif.Props.ParetoFront
/-!
# C56: the nadir point of a given front
-/

namespace Gapp.Props
open Gapp.Model Gapp.Spec Flt
variable {K : Type} [CommRing K] [LinearOrder K] [IsStrictOrderedRing K]

/-- For a non-empty list of points with `m` coordinates each, every coordinate of the result of `findFrontNadirPoint` is a lower bound of that coordinate of the points, and the value of one
of them. For no points the result is empty. -/
theorem C56_front_nadir_point (m : Nat) (points : FMat K) (hm : IsMatrix m points) :
    (points = [] → findFrontNadirPoint points = []) ∧
      (points ≠ [] → (findFrontNadirPoint points).length = m ∧ ∀ (k : Nat) (x : Flt K), (findFrontNadirPoint points)[k]? = some x →
        (∀ p ∈ points, ∀ y, p[k]? = some y → x ≤ y) ∧ ∃ p ∈ points, p[k]? = some x) := by
  refine ⟨by rintro rfl; rfl, ?_⟩
  intro hne
  cases points with
  | nil => exact absurd rfl hne
  | cons q qs =>
    obtain ⟨n1, n2⟩ := foldl_elementwiseMin_spec m q qs (hm q (by simp)) (fun r hr => hm r (by simp [hr]))
    refine ⟨n1, ?_⟩
    intro k x hx
    obtain ⟨hk, he⟩ := List.getElem?_eq_some_iff.mp hx
    obtain ⟨n3, n4⟩ := n2 k hk
    have he' : (qs.foldl elementwiseMin q)[k] = x := he
    rw [he'] at n3 n4
    exact ⟨fun p hp y hy => n3 p hp y hy, n4⟩

example : findFrontNadirPoint ([[fin 3, fin 1], [pinf, fin 0], [fin 2, fin 5]] : FMat ℤ) = [fin 2, fin 0] := by decide

end Gapp.Props
