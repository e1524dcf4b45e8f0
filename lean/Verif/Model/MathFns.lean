import Verif.Model.ConeTree
import Verif.Model.Hypervolume
import Verif.Model.RefLines
import Mathlib.Analysis.SpecialFunctions.Trigonometric.Basic
/-!
# The vector functions and the integral of `utility/math.cpp`

Source: `/repo/src/utility/math.cpp:57-97, 126-139`. `innerProduct`, `perpendicularDistanceSq`, `euclideanDistanceSq`, `normalizeVector` and `volumeBetween` are defined where the algorithms use them.
Simplification: real numbers for doubles.
-/

namespace Gapp.Model

/-- math.cpp:57-60 `euclideanNorm`. -/
noncomputable def euclideanNorm (vec : List ℝ) : ℝ := Real.sqrt (innerProduct vec vec)

/-- math.cpp:130-136 `integralSinPow`: the loop, from `n` on. -/
noncomputable def sinPowLoop (exponent : Nat) (x : ℝ) (n : Nat) (integral : ℝ) : ℝ :=
  if n ≤ exponent then
    let mult := ((n : ℝ) - 1) / n
    let plus := -Real.cos x * Real.sin x ^ (n - 1) / n
    sinPowLoop exponent x (n + 2) (mult * integral + plus)
  else integral
termination_by exponent + 1 - n

/-- math.cpp:126-139 `integralSinPow`. -/
noncomputable def integralSinPow (exponent : Nat) (x : ℝ) : ℝ := sinPowLoop exponent x (2 + exponent % 2) (if exponent % 2 ≠ 0 then -Real.cos x else x)

end Gapp.Model
