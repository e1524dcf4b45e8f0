import Verif.Model.Benchmarks
/-!
# The ideal and nadir points of the benchmark functions
-/

namespace Gapp.Model

open Real

/-- benchmark_function.hpp:40-46 `ideal_point`, `nadir_point`. -/
structure FrontPoints where
  ideal : List ℝ
  nadir : List ℝ

/-- benchmark_function.hpp:53-57: for one objective, both are the optimal value. -/
def singlePoints (B : Benchmark) : FrontPoints := ⟨B.optimalValue, B.optimalValue⟩
/-- multi_objective.cpp:25-26. -/
noncomputable def kursaweP (n : Nat) : FrontPoints := ⟨[10 * ((n : ℝ) - 1), 3.85 * ((n : ℝ) - 1) + 4], [7.25 * ((n : ℝ) - 1), 0]⟩
/-- multi_objective.cpp:55-56. -/
noncomputable def zdt1P : FrontPoints := ⟨[0, 0], [-1, -1]⟩
/-- multi_objective.cpp:82-83. -/
noncomputable def zdt2P : FrontPoints := ⟨[0, 0], [-1, -1]⟩
/-- multi_objective.cpp:109-110. -/
noncomputable def zdt3P : FrontPoints := ⟨[0, 0.8], [-0.85, -1]⟩
/-- multi_objective.cpp:138-139. -/
noncomputable def zdt4P : FrontPoints := ⟨[0, 0], [-1, -1]⟩
/-- multi_objective.cpp:167-168; `n` is the number of variables passed to the constructor. -/
noncomputable def zdt5P (n : Nat) : FrontPoints := ⟨[-1, -((n - 1 : Nat) : ℝ) / (zdt5First + 1)], [-(zdt5First + 1), -((n - 1 : Nat) : ℝ)]⟩
/-- multi_objective.cpp:199-200. -/
noncomputable def zdt6P : FrontPoints := ⟨[0, 0], [-1, -0.92]⟩
/-- many_objective.cpp:193-194. -/
noncomputable def dtlz1P (m : Nat) : FrontPoints := ⟨List.replicate m 0, List.replicate m (-0.5)⟩
/-- many_objective.cpp:213-214. -/
noncomputable def dtlz2P (m : Nat) : FrontPoints := ⟨List.replicate m 0, List.replicate m (-1)⟩
/-- many_objective.cpp:233-234. -/
noncomputable def dtlz3P (m : Nat) : FrontPoints := ⟨List.replicate m 0, List.replicate m (-1)⟩
/-- many_objective.cpp:253-254. -/
noncomputable def dtlz4P (m : Nat) : FrontPoints := ⟨List.replicate m 0, List.replicate m (-1)⟩
/-- many_objective.cpp:273-278, 298-303: the nadir point of DTLZ5 and DTLZ6. -/
noncomputable def dtlz5Nadir (m : Nat) : List ℝ :=
  let nadir := (List.range m).map (fun i => -1 / √2 ^ (m - 1 - i))
  nadir.set 0 (nadir.getD 1 0)
/-- many_objective.cpp:272-278. -/
noncomputable def dtlz5P (m : Nat) : FrontPoints := ⟨List.replicate m 0, dtlz5Nadir m⟩
/-- many_objective.cpp:297-303. -/
noncomputable def dtlz6P (m : Nat) : FrontPoints := ⟨List.replicate m 0, dtlz5Nadir m⟩
/-- many_objective.cpp:325-328. -/
noncomputable def dtlz7P (m : Nat) : FrontPoints :=
  ⟨List.replicate (m - 1) 0 ++ [-0.307004 * (m : ℝ) - 1.692996], List.replicate (m - 1) (-1) ++ [-2 * (m : ℝ)]⟩

end Gapp.Model
