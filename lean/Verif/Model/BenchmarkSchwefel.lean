import Verif.Model.Benchmarks
/-!
# The Schwefel function
-/

namespace Gapp.Model

open Real

/-- single_objective.cpp:45-54 `Schwefel::invoke`. Simplification: real arithmetic; the decimal constants are taken exactly. -/
noncomputable def schwefel (vars : List ℝ) : ℝ := -(vars.foldl (fun fx x => fx - x * sin (√|x|)) (418.98288727215591 * (vars.length : ℝ)))

/-- single_objective.hpp:135-137. -/
noncomputable def schwefelB (n : Nat) : Benchmark := uniformBenchmark (-500) 500 (List.replicate n 420.9687) [0] (fun v => [schwefel v])

end Gapp.Model
