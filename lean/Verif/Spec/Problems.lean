import Verif.Model.Problems
import Mathlib.Data.Nat.Digits.Defs
/-!
# What the benchmark problems should compute
-/

namespace Gapp.Spec

/-- The number with the given bits, the most significant one first. -/
def bitsNumber (bits : List Bool) : Nat := Nat.ofDigits 2 (bits.reverse.map Bool.toNat)

/-- The bits of variable `i`, if each variable has `n` bits. -/
def varBitsOf (bchrom : List Bool) (n i : Nat) : List Bool := (bchrom.drop (i * n)).take n

/-- The Euclidean distance. -/
noncomputable def dist2 (p q : ℝ × ℝ) : ℝ := Real.sqrt ((p.1 - q.1) ^ 2 + (p.2 - q.2) ^ 2)

/-- The length of the way through the points. -/
noncomputable def pathLength : List (ℝ × ℝ) → ℝ
  | p :: q :: ps => dist2 p q + pathLength (q :: ps)
  | _ => 0

/-- The length of the closed tour that starts and ends at the point `p`. -/
noncomputable def tourLength (p : ℝ × ℝ) (ps : List (ℝ × ℝ)) : ℝ := pathLength (p :: ps ++ [p])

end Gapp.Spec
