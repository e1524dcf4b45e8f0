import Verif.Model.DoubleMulti
import Verif.Model.ParetoFront
/-! # Specification of crowding distances in binary64 arithmetic -/

namespace Gapp.Spec
open Gapp.Model

/-- A number whose differences from other such numbers are finite: at most half of the largest number of the type `double`. -/
def ModerateD (v : Dbl) : Prop := ∃ x : ℚ, v = .fin x ∧ |x| ≤ 2 ^ 1023 - 2 ^ 970

/-- A number that is not negative, or the positive infinity. -/
def NonnegD (v : Dbl) : Prop := v = .pinf ∨ ∃ x : ℚ, v = .fin x ∧ 0 ≤ x

/-- The (rounded) gap around the candidate `i` in an ordering of a front by one objective: infinite for the first and the last candidate, and otherwise the difference of the values of its
two neighbours, divided by the difference of the values of the last and the first candidate (or by `1E-8`, if that is smaller). With `recip`, the division is a product with the reciprocal. -/
def IsGapD (recip : Bool) (val : Nat → Dbl) (order : List Nat) (i : Nat) (g : Dbl) : Prop :=
  ∃ k, order[k]? = some i ∧
    (((k = 0 ∨ k + 1 = order.length) ∧ g = .pinf) ∨
     ∃ prev next first last, 0 < k ∧ order[k - 1]? = some prev ∧ order[k + 1]? = some next ∧ order[0]? = some first ∧ order[order.length - 1]? = some last ∧
       g = divR recip (Dbl.sub (val next) (val prev)) (Dbl.max (Dbl.sub (val last) (val first)) (roundD (1 / 10 ^ 8))))

/-- `d` gives the candidates of `front` their (rounded) crowding distances: for each objective there is an ordering of the front by that objective (equal values in any order), and the
distance of a candidate is the sum of its gaps. -/
def IsCrowdingD (recip : Bool) (ncols : Nat) (fmat : List (List Dbl)) (front : List Nat) (d : Nat → Dbl) : Prop :=
  ∃ (val : Nat → Nat → Dbl) (order : Nat → List Nat) (gap : Nat → Nat → Dbl),
    (∀ obj, obj < ncols → (order obj).Perm front ∧ (order obj).Pairwise (fun a b => Dbl.le (val obj a) (val obj b) = true) ∧
      (∀ i ∈ front, (∃ row, fmat[i]? = some row ∧ row[obj]? = some (val obj i)) ∧ IsGapD recip (val obj) (order obj) i (gap obj i))) ∧
    ∀ i ∈ front, d i = ((List.range ncols).map (fun obj => gap obj i)).foldl Dbl.add (.fin 0)

/-- A number or an infinity (NaN is not a number). -/
def dblToFlt : Dbl → Flt ℚ
  | .nan => .ninf
  | .ninf => .ninf
  | .fin x => .fin x
  | .pinf => .pinf

/-- The rows of a matrix without NaN. -/
def dblRows (fmat : List (List Dbl)) : FMat ℚ := fmat.map (fun r => r.map dblToFlt)

/-- A sort of the elements of `l` by `lt` is undefined: `a` and `b`, and `b` and `c` are equivalent, but `a` is before `c` ([alg.sorting] 25.8.1 of the C++ standard). -/
def SortUndefined {α : Type} (lt : α → α → Bool) (l : List α) : Prop :=
  ∃ a ∈ l, ∃ b ∈ l, ∃ c ∈ l, lt a b = false ∧ lt b a = false ∧ lt b c = false ∧ lt c b = false ∧ lt a c = true

end Gapp.Spec
