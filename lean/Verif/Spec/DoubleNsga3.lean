import Verif.Spec.Double
import Verif.Model.Nsga3
/-!
# What the numbers of NSGA-III approximate

The exact values of `nsga3.cpp:29-70, 228-239`, for the values of the type `double` in the fitness matrix, the ideal point and the nadir point.
-/

namespace Gapp.Spec
open Gapp.Model

/-- The number that a value is; 0 for the infinities and NaN. -/
def Dbl.val : Dbl → ℚ
  | .fin q => q
  | _ => 0

/-- A number of the type `double` that is not huge. -/
def Moderate (x : Dbl) : Prop := ∃ q, x = .fin q ∧ IsBinary53 q ∧ |q| ≤ 2 ^ (400 : ℤ)

/-- A coordinate of a direction: a number between -2 and 2; rounding can bring a coordinate of a unit vector above 1. -/
def UnitEntry (x : Dbl) : Prop := ∃ q, x = .fin q ∧ |q| ≤ 2

/-- The smallest width of the range of an objective: the number `1e-8` of the type `double`. -/
def smallestRange : ℚ := roundQ (1 / 100000000)

/-- The weight of the other objectives: the number `1e-6` of the type `double`. -/
def smallWeight : ℚ := roundQ (1 / 1000000)

/-- How far a fitness vector is from the ideal point in each objective, relative to the range between the ideal point and the nadir point. -/
def normalizedQ (ideal nadir row : List Dbl) : List ℚ :=
  List.zipWith (fun f p => (Dbl.val p.1 - Dbl.val f) / max (Dbl.val p.1 - Dbl.val p.2) smallestRange) row (ideal.zip nadir)

/-- The inner product. -/
def dotQ (a : List ℚ) (line : List Dbl) : ℚ := (List.zipWith (fun x l => x * Dbl.val l) a line).sum

/-- The sum of the absolute values. -/
def sizeQ (a : List ℚ) : ℚ := (a.map (fun x => |x|)).sum

/-- How far a fitness vector is at most from the ideal point, where the objective `axis` has the weight 1 and the others count a million times as much. -/
def IsAsf (ideal row : List Dbl) (axis : Nat) (v : ℚ) : Prop :=
  let far : Nat → ℚ := fun k => (Dbl.val (ideal.getD k .nan) - Dbl.val (row.getD k .nan)) / (if k = axis then 1 else smallWeight)
  (∃ k < ideal.length, v = far k) ∧ ∀ k < ideal.length, far k ≤ v

/-- Each coordinate of `v` is the largest in its column. -/
def IsLargestOf (rows : List (List Dbl)) (v : List Dbl) : Prop :=
  ∀ (j : Nat) (x : Dbl), v[j]? = some x → (∃ r ∈ rows, r[j]? = some x) ∧ ∀ r ∈ rows, ∀ y, r[j]? = some y → Dbl.val y ≤ Dbl.val x

/-- Each coordinate of `v` is the smallest in its column. -/
def IsSmallestOf (rows : List (List Dbl)) (v : List Dbl) : Prop :=
  ∀ (j : Nat) (x : Dbl), v[j]? = some x → (∃ r ∈ rows, r[j]? = some x) ∧ ∀ r ∈ rows, ∀ y, r[j]? = some y → Dbl.val x ≤ Dbl.val y

/-- No coordinate of `a` is larger than that of `b`. -/
def Below (a b : List Dbl) : Prop := ∀ (j : Nat) (x y : Dbl), a[j]? = some x → b[j]? = some y → Dbl.val x ≤ Dbl.val y

/-- `extreme` has a point for each objective `j` that was in the rows, and no row has a value of the scalarizing function of that objective that is smaller by more than the rounding errors. -/
def ExtremePoints (m : Nat) (ideal : List Dbl) (rows extreme : List (List Dbl)) : Prop :=
  extreme.length = m ∧ ∀ (j : Nat) (e : List Dbl), extreme[j]? = some e → e ∈ rows ∧
    ∃ a, IsAsf ideal e j a ∧ ∀ r ∈ rows, ∀ b, IsAsf ideal r j b → a ≤ (1 + 15 / 2 ^ 53) * b + 3 * 2 ^ (-1075 : ℤ)

/-- The direction of the line `k` is the closest to that of the normalized `row`, except for the rounding errors: no line has a larger inner product with it. -/
def NearlyClosestLine (m : Nat) (lines : List (List Dbl)) (ideal nadir row : List Dbl) (k : Nat) : Prop :=
  ∃ best, lines[k]? = some best ∧ ∀ line ∈ lines, dotQ (normalizedQ ideal nadir row) line ≤
    dotQ (normalizedQ ideal nadir row) best + (8 * m + 56) / 2 ^ 53 * sizeQ (normalizedQ ideal nadir row) + 32 * m * 2 ^ (-1075 : ℤ)

/-- Numbers for which NSGA-III has no overflow: an ideal point and extreme points of numbers that are not huge, where the extreme points are not better than the ideal point, and lines of
numbers between -2 and 2. -/
structure ModerateState (s : Nsga3 Dbl) : Prop where
  ideal : ∀ x ∈ s.ideal, Moderate x
  extreme : ∀ r ∈ s.extreme, ∀ x ∈ r, Moderate x
  below : ∀ r ∈ s.extreme, Below r s.ideal
  lines : ∀ line ∈ s.refLines, ∀ l ∈ line, UnitEntry l

end Gapp.Spec
