import Mathlib.Analysis.SpecialFunctions.Pow.Real
import Mathlib.Analysis.SpecialFunctions.Trigonometric.Basic
/-!
# The benchmark functions

Models the single-, multi- and many-objective benchmark functions of `problems/*.cpp` with real numbers in place of floating-point numbers. A chromosome is a list of variables. Left out: the Schwefel function (its constants are rounded decimal numbers). Assertions and accesses outside of the chromosome are not checked by the functions: accesses go through `getD` with the default 0, and the theorems ask for chromosomes that are long enough.
-/

namespace Gapp.Model

open Real

/-- single_objective.cpp:16-19 `Sphere::invoke`. -/
noncomputable def sphere (vars : List ℝ) : ℝ := -(vars.foldl (fun acc x => acc + x * x) 0)

/-- single_objective.cpp:21-30 `Rastrigin::invoke`. -/
noncomputable def rastrigin (vars : List ℝ) : ℝ :=
  -(vars.foldl (fun fx var => fx + (var ^ 2 - 10 * cos (2 * π * var))) (10 * vars.length))

/-- single_objective.cpp:32-43 `Rosenbrock::invoke`. -/
noncomputable def rosenbrock (vars : List ℝ) : ℝ :=
  -((List.range (vars.length - 1)).foldl (fun fx i =>
    fx + (100 * (vars.getD (i + 1) 0 - vars.getD i 0 ^ 2) ^ 2 + (vars.getD i 0 - 1) ^ 2)) 0)

/-- single_objective.cpp:56-67 `Griewank::invoke`: the loop. -/
noncomputable def griewankLoop (vars : List ℝ) : ℝ × ℝ :=
  (List.range vars.length).foldl (fun s i => (s.1 + vars.getD i 0 ^ 2, s.2 * cos (vars.getD i 0 / √(i + 1)))) (4000, 1)

/-- single_objective.cpp:56-67 `Griewank::invoke`. -/
noncomputable def griewank (vars : List ℝ) : ℝ := -(griewankLoop vars).1 / 4000 + (griewankLoop vars).2

/-- single_objective.cpp:69-86 `Ackley::invoke`. -/
noncomputable def ackley (vars : List ℝ) : ℝ :=
  let f1 := vars.foldl (fun f x => f + x ^ 2) 0
  let f2 := vars.foldl (fun f x => f + cos (2 * π * x)) 0
  let f1 := exp (-0.2 * √(f1 / vars.length))
  let f2 := exp (f2 / vars.length);
  -(-20 * f1 - f2 + 20 + exp 1)

/-- single_objective.cpp:92: `fw`. -/
noncomputable def levyW (x : ℝ) : ℝ := 0.25 * x + 0.75

/-- single_objective.cpp:88-102 `Levy::invoke`. -/
noncomputable def levy (vars : List ℝ) : ℝ :=
  let fx := sin (π * levyW (vars.getD 0 0)) ^ 2
  let fx := (List.range (vars.length - 1)).foldl (fun fx i =>
    fx + (levyW (vars.getD i 0) - 1) ^ 2 * (1 + 10 * sin (π * levyW (vars.getD i 0) + 1) ^ 2)) fx
  let fx := fx + (levyW (vars.getD (vars.length - 1) 0) - 1) ^ 2 * (1 + sin (2 * π * levyW (vars.getD (vars.length - 1) 0)) ^ 2);
  -fx

/-! ## Two objectives -/

/-- multi_objective.cpp:29-44 `Kursawe::invoke`. -/
noncomputable def kursawe (vars : List ℝ) : List ℝ :=
  let s := (List.range (vars.length - 1)).foldl (fun (s : ℝ × ℝ) i =>
    (s.1 - 10 * exp (-0.2 * √(vars.getD i 0 ^ 2 + vars.getD (i + 1) 0 ^ 2)),
      s.2 + (|vars.getD i 0| ^ (0.8 : ℝ) + 5 * sin (vars.getD i 0 ^ 3)))) (0, 0)
  let x := vars.getD (vars.length - 1) 0
  [-s.1, -(s.2 + (|x| ^ (0.8 : ℝ) + 5 * sin (x ^ 3)))]

/-- multi_objective.cpp:65-66 (also 92-93, 119-120): `g` of ZDT1, ZDT2, ZDT3. -/
noncomputable def zdtG (vars : List ℝ) : ℝ := 1 + 9 * vars.tail.sum / (vars.length - 1)

/-- multi_objective.cpp:59-71 `ZDT1::invoke`. -/
noncomputable def zdt1 (vars : List ℝ) : List ℝ :=
  let f1 := vars.getD 0 0
  let g := zdtG vars
  [-f1, -(g - g * √(f1 / g))]

/-- multi_objective.cpp:86-98 `ZDT2::invoke`. -/
noncomputable def zdt2 (vars : List ℝ) : List ℝ :=
  let f1 := vars.getD 0 0
  let g := zdtG vars
  [-f1, -(g - f1 * f1 / g)]

/-- multi_objective.cpp:113-125 `ZDT3::invoke`. -/
noncomputable def zdt3 (vars : List ℝ) : List ℝ :=
  let f1 := vars.getD 0 0
  let g := zdtG vars
  [-f1, -(g - g * √(f1 / g) - f1 * sin (10 * π * f1))]

/-- multi_objective.cpp:142-156 `ZDT4::invoke`. -/
noncomputable def zdt4 (vars : List ℝ) : List ℝ :=
  let f1 := vars.getD 0 0
  let g := (vars.tail.map (fun val => val ^ 2 - 10 * cos (4 * π * val))).sum
  let g := 1 + 10 * ((vars.length : ℝ) - 1) + g
  [-f1, -(g - g * √(f1 / g))]

/-- multi_objective.hpp:221-222. -/
def zdt5First : Nat := 30

/-- multi_objective.hpp:221-222. -/
def zdt5Rest : Nat := 5

/-- multi_objective.cpp:179-183: the loop of `ZDT5::invoke` over the blocks of bits after the first one, as long as a whole block is left. -/
def zdt5Loop (bits : List Bool) (g : Nat) : Nat :=
  if zdt5Rest ≤ bits.length then
    let ones := (bits.take zdt5Rest).count true
    zdt5Loop (bits.drop zdt5Rest) (g + if ones = zdt5Rest then 1 else 2 + ones)
  else g
termination_by bits.length
decreasing_by
  rw [List.length_drop]
  simp only [zdt5Rest] at *
  omega

/-- multi_objective.cpp:171-188 `ZDT5::invoke`. -/
noncomputable def zdt5 (bits : List Bool) : List ℝ :=
  let f1 : ℝ := 1 + ((bits.take zdt5First).count true : Nat)
  let g : ℝ := (zdt5Loop (bits.drop zdt5First) 0 : Nat)
  [-f1, -(g / f1)]

/-- multi_objective.cpp:203-215 `ZDT6::invoke`. -/
noncomputable def zdt6 (vars : List ℝ) : List ℝ :=
  let x := vars.getD 0 0
  let f1 := 1 - exp (-4 * x) * sin (6 * π * x) ^ 6
  let g := 1 + 9 * (vars.tail.sum / (vars.length - 1)) ^ (0.25 : ℝ)
  [-f1, -(g - f1 * f1 / g)]

/-! ## Many objectives -/

/-- many_objective.cpp:20-31 `dtlz1_g`. -/
noncomputable def dtlz1G (xs : List ℝ) : ℝ :=
  100 * xs.foldl (fun g x => g + ((x - 0.5) ^ 2 - cos (20 * π * (x - 0.5)))) (xs.length : ℝ)

/-- many_objective.cpp:33-44 `dtlz2_g`. -/
noncomputable def dtlz2G (xs : List ℝ) : ℝ := xs.foldl (fun g x => g + (x - 0.5) ^ 2) 0

/-- many_objective.cpp:52-63 `dtlz6_g`. -/
noncomputable def dtlz6G (xs : List ℝ) : ℝ := xs.foldl (fun g x => g + x ^ (0.1 : ℝ)) 0

/-- many_objective.cpp:65-70 `dtlz7_g`. -/
noncomputable def dtlz7G (xs : List ℝ) : ℝ := 1 + 9 / xs.length * xs.sum

/-- many_objective.cpp:75-88, 90-103, 107-120: the loops of `dtlz1_f`, `dtlz2_f` and `dtlz4_f` from the back to the front: the current element `f` is multiplied by `near x`, the next one becomes `f * far x`. The result lists the elements from the front to the back. -/
noncomputable def dtlzSplit (near far : ℝ → ℝ) (f : ℝ) : List ℝ → List ℝ
  | [] => [f]
  | x :: xs => dtlzSplit near far (f * far x) xs ++ [f * near x]

/-- many_objective.cpp:75-88 `dtlz1_f`. -/
noncomputable def dtlz1F (xs : List ℝ) (_ : ℝ) : List ℝ := dtlzSplit (fun x => 1 - x) (fun x => x) 0.5 xs

/-- many_objective.cpp:90-103 `dtlz2_f`. -/
noncomputable def dtlz2F (xs : List ℝ) (_ : ℝ) : List ℝ := dtlzSplit (fun x => sin (x * π / 2)) (fun x => cos (x * π / 2)) 1 xs

/-- many_objective.cpp:107-120 `dtlz4_f`. -/
noncomputable def dtlz4F (xs : List ℝ) (_ : ℝ) : List ℝ :=
  dtlzSplit (fun x => sin (x ^ 100 * π / 2)) (fun x => cos (x ^ 100 * π / 2)) 1 xs

/-- many_objective.cpp:122-141 `dtlz5_f`: the last element is the sine of the first variable, the loop starts at the element before it with the cosine. -/
noncomputable def dtlz5F (xs : List ℝ) (g : ℝ) : List ℝ :=
  let theta := fun x => (g * x + 0.5) / (1 + g)
  let x0 := xs.getD 0 0
  dtlzSplit (fun x => sin (theta x * π / 2)) (fun x => cos (theta x * π / 2)) (cos (x0 * π / 2)) xs.tail ++ [sin (x0 * π / 2)]

/-- many_objective.cpp:145-160 `dtlz7_f`. -/
noncomputable def dtlz7F (xs : List ℝ) (g : ℝ) : List ℝ :=
  let back := xs.foldl (fun b x => b - x * (1 + sin (3 * π * x))) ((1 + g) * (xs.length + 1 : Nat))
  xs.map (fun x => x / (1 + g)) ++ [back / (1 + g)]

/-- many_objective.cpp:165-177 `dtlz`. -/
noncomputable def dtlz (F : List ℝ → ℝ → List ℝ) (G : List ℝ → ℝ) (vars : List ℝ) (numObj : Nat) : List ℝ :=
  let g := G (vars.drop (numObj - 1))
  (F (vars.take (numObj - 1)) g).map (fun val => val * -(1 + g))

/-- many_objective.cpp:179. -/
noncomputable def dtlz1 := dtlz dtlz1F dtlz1G
/-- many_objective.cpp:180. -/
noncomputable def dtlz2 := dtlz dtlz2F dtlz2G
/-- many_objective.cpp:46, 105, 181: DTLZ3. -/
noncomputable def dtlz3 := dtlz dtlz2F dtlz1G
/-- many_objective.cpp:48, 182: DTLZ4. -/
noncomputable def dtlz4 := dtlz dtlz4F dtlz2G
/-- many_objective.cpp:50, 183: DTLZ5. -/
noncomputable def dtlz5 := dtlz dtlz5F dtlz2G
/-- many_objective.cpp:143, 184: DTLZ6. -/
noncomputable def dtlz6 := dtlz dtlz5F dtlz6G
/-- many_objective.cpp:185: DTLZ7. -/
noncomputable def dtlz7 := dtlz dtlz7F dtlz7G

/-! ## The documented optima -/

/-- benchmark_function.hpp:24-46: the properties of a problem with real variables. -/
structure Benchmark where
  bounds : List (ℝ × ℝ)
  optimum : List ℝ
  optimalValue : List ℝ
  fitness : List ℝ → List ℝ

/-- Constructors with uniform bounds (benchmark_function.hpp:58-75). -/
noncomputable def uniformBenchmark (lo up : ℝ) (optimum optimalValue : List ℝ) (fitness : List ℝ → List ℝ) : Benchmark :=
  ⟨List.replicate optimum.length (lo, up), optimum, optimalValue, fitness⟩

/-- single_objective.hpp:33-35. -/
noncomputable def sphereB (n : Nat) : Benchmark := uniformBenchmark (-5.12) 5.12 (List.replicate n 0) [0] (fun v => [sphere v])
/-- single_objective.hpp:67-69. -/
noncomputable def rastriginB (n : Nat) : Benchmark := uniformBenchmark (-5.12) 5.12 (List.replicate n 0) [0] (fun v => [rastrigin v])
/-- single_objective.hpp:103-105. -/
noncomputable def rosenbrockB (n : Nat) : Benchmark := uniformBenchmark (-2.048) 2.048 (List.replicate n 1) [0] (fun v => [rosenbrock v])
/-- single_objective.hpp:175-177. -/
noncomputable def griewankB (n : Nat) : Benchmark := uniformBenchmark (-600) 600 (List.replicate n 0) [0] (fun v => [griewank v])
/-- single_objective.hpp:211-213. -/
noncomputable def ackleyB (n : Nat) : Benchmark := uniformBenchmark (-32.768) 32.768 (List.replicate n 0) [0] (fun v => [ackley v])
/-- single_objective.hpp:242-244. -/
noncomputable def levyB (n : Nat) : Benchmark := uniformBenchmark (-10) 10 (List.replicate n 1) [0] (fun v => [levy v])
/-- multi_objective.cpp:17-27. -/
noncomputable def kursaweB (n : Nat) : Benchmark := uniformBenchmark (-5) 5 (List.replicate n 0) [10 * ((n : ℝ) - 1), 0] kursawe
/-- multi_objective.cpp:47-57. -/
noncomputable def zdt1B (n : Nat) : Benchmark := uniformBenchmark 0 1 (List.replicate n 0) [0, -1] zdt1
/-- multi_objective.cpp:74-84. -/
noncomputable def zdt2B (n : Nat) : Benchmark := uniformBenchmark 0 1 (List.replicate n 0) [0, -1] zdt2
/-- multi_objective.cpp:101-111. -/
noncomputable def zdt3B (n : Nat) : Benchmark := uniformBenchmark 0 1 (List.replicate n 0) [0, -1] zdt3
/-- multi_objective.cpp:128-140. -/
noncomputable def zdt4B (n : Nat) : Benchmark :=
  { uniformBenchmark (-5) 5 (List.replicate n 0) [0, -1] zdt4 with bounds := (List.replicate n ((-5 : ℝ), (5 : ℝ))).set 0 (0, 1) }
/-- multi_objective.cpp:191-201. -/
noncomputable def zdt6B (n : Nat) : Benchmark := uniformBenchmark 0 1 (List.replicate n 0) [-1, 0] zdt6
/-- many_objective.cpp:188-200; `K` is 5 (many_objective.hpp:51), the number of variables `num_obj + K - 1`. -/
noncomputable def dtlz1B (m : Nat) : Benchmark :=
  uniformBenchmark 0 1 (List.replicate (m - 1) 0 ++ List.replicate 5 0.5) (List.replicate (m - 1) 0 ++ [-0.5]) (fun v => dtlz1 v m)
/-- many_objective.cpp:208-220; `K` is 10. -/
noncomputable def dtlz2B (m : Nat) : Benchmark :=
  uniformBenchmark 0 1 (List.replicate (m - 1) 0 ++ List.replicate 10 0.5) (-1 :: List.replicate (m - 1) 0) (fun v => dtlz2 v m)
/-- many_objective.cpp:228-240. -/
noncomputable def dtlz3B (m : Nat) : Benchmark :=
  uniformBenchmark 0 1 (List.replicate (m - 1) 0 ++ List.replicate 10 0.5) (-1 :: List.replicate (m - 1) 0) (fun v => dtlz3 v m)
/-- many_objective.cpp:248-259: all variables of the optimum are 0.5. -/
noncomputable def dtlz4B (m : Nat) : Benchmark :=
  uniformBenchmark 0 1 (List.replicate (m + 10 - 1) 0.5) (-1 :: List.replicate (m - 1) 0) (fun v => dtlz4 v m)
/-- many_objective.cpp:272-282, 297-306: the nadir point of DTLZ5 and DTLZ6 with the last element set to 0. -/
noncomputable def dtlz5Value (m : Nat) : List ℝ :=
  let nadir := (List.range m).map (fun i => -1 / √2 ^ (m - 1 - i))
  let nadir := nadir.set 0 (nadir.getD 1 0)
  nadir.set (m - 1) 0
/-- many_objective.cpp:267-284. -/
noncomputable def dtlz5B (m : Nat) : Benchmark :=
  uniformBenchmark 0 1 (List.replicate (m - 1) 0 ++ List.replicate 10 0.5) (dtlz5Value m) (fun v => dtlz5 v m)
/-- many_objective.cpp:292-308. -/
noncomputable def dtlz6B (m : Nat) : Benchmark :=
  uniformBenchmark 0 1 (List.replicate (m + 10 - 1) 0) (dtlz5Value m) (fun v => dtlz6 v m)
/-- many_objective.cpp:316-329; `K` is 20. -/
noncomputable def dtlz7B (m : Nat) : Benchmark :=
  uniformBenchmark 0 1 (List.replicate (m + 20 - 1) 0) (List.replicate (m - 1) 0 ++ [-2 * (m : ℝ)]) (fun v => dtlz7 v m)

end Gapp.Model
