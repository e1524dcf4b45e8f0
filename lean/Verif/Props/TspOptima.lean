import Mathlib.Tactic.NormNum
import Mathlib.Tactic.Linarith
import Verif.Model.Problems
import Verif.Model.TspData
import Verif.Spec.TspOptima
import Verif.Props.Problems
import Verif.Proofs.TspCert52
import Verif.Proofs.TspCert76
import Verif.Proofs.TspCert124
import Verif.Proofs.TspCert152
import Verif.Proofs.TspCert226
import Verif.Proofs.TspCert299
import Verif.Proofs.TspCert439

/-!
C75: the documented optimal values of the travelling salesman benchmark problems, for all the tours through the 52 to 439 cities.
-/

namespace Gapp.Props

open Gapp.Model Gapp.Spec Gapp.Proofs.TspBound

/-- travelling_salesman.hpp:20-36, travelling_salesman.cpp:30-43: the fitness function of a travelling salesman problem. -/
noncomputable def tspFitness (I : TspInstance) (chrom : List Nat) : Option ℝ := tspInvoke (planePoints I.cities) chrom

theorem tsp52_length : tsp52Coords.length = 52 := by decide +kernel

/-- C75, `TSP52`: no tour has a fitness above -7544.365883, and there is one with at least -7544.365927. The documented optimal value is -7542. -/
theorem C75_tsp52_bounds : NoTourAbove 52 (tspFitness tsp52) (-7544.365883) ∧ SomeTourAtLeast 52 (tspFitness tsp52) (-7544.365927) := by
  constructor
  · intro chrom h
    obtain ⟨f, e, hf⟩ := fitness_le cert52_check cert52_bound (chrom := chrom) (by rw [tsp52_length]; exact h)
    refine ⟨f, e, hf.trans (le_of_eq ?_)⟩
    show -(((_ : Int) : ℝ) / ((1000000 : Int) : ℝ)) = _
    norm_num
  · obtain ⟨hp, f, e, hf⟩ := le_fitness (cities := tsp52Coords) (by rw [tsp52_length]; norm_num) tour52_check tour52_sum
    rw [tsp52_length] at hp
    refine ⟨tour52, hp, f, e, le_trans (le_of_eq ?_) hf⟩
    norm_num

theorem tsp76_length : tsp76Coords.length = 76 := by decide +kernel

/-- C75, `TSP76`: no tour has a fitness above -105120.159, and there is one with at least -108159.461. The documented optimal value is -108159. -/
theorem C75_tsp76_bounds : NoTourAbove 76 (tspFitness tsp76) (-105120.159) ∧ SomeTourAtLeast 76 (tspFitness tsp76) (-108159.461) := by
  constructor
  · intro chrom h
    obtain ⟨f, e, hf⟩ := fitness_le cert76_check cert76_bound (chrom := chrom) (by rw [tsp76_length]; exact h)
    refine ⟨f, e, hf.trans (le_of_eq ?_)⟩
    show -(((_ : Int) : ℝ) / ((1000 : Int) : ℝ)) = _
    norm_num
  · obtain ⟨hp, f, e, hf⟩ := le_fitness (cities := tsp76Coords) (by rw [tsp76_length]; norm_num) tour76_check tour76_sum
    rw [tsp76_length] at hp
    refine ⟨tour76, hp, f, e, le_trans (le_of_eq ?_) hf⟩
    norm_num

theorem tsp124_length : tsp124Coords.length = 124 := by decide +kernel

/-- C75, `TSP124`: no tour has a fitness above -58067.901, and there is one with at least -59030.759. The documented optimal value is -59030. -/
theorem C75_tsp124_bounds : NoTourAbove 124 (tspFitness tsp124) (-58067.901) ∧ SomeTourAtLeast 124 (tspFitness tsp124) (-59030.759) := by
  constructor
  · intro chrom h
    obtain ⟨f, e, hf⟩ := fitness_le cert124_check cert124_bound (chrom := chrom) (by rw [tsp124_length]; exact h)
    refine ⟨f, e, hf.trans (le_of_eq ?_)⟩
    show -(((_ : Int) : ℝ) / ((1000 : Int) : ℝ)) = _
    norm_num
  · obtain ⟨hp, f, e, hf⟩ := le_fitness (cities := tsp124Coords) (by rw [tsp124_length]; norm_num) tour124_check tour124_sum
    rw [tsp124_length] at hp
    refine ⟨tour124, hp, f, e, le_trans (le_of_eq ?_) hf⟩
    norm_num

theorem tsp152_length : tsp152Coords.length = 152 := by decide +kernel

/-- C75, `TSP152`: no tour has a fitness above -73211.257, and there is one with at least -73683.719. The documented optimal value is -73682. -/
theorem C75_tsp152_bounds : NoTourAbove 152 (tspFitness tsp152) (-73211.257) ∧ SomeTourAtLeast 152 (tspFitness tsp152) (-73683.719) := by
  constructor
  · intro chrom h
    obtain ⟨f, e, hf⟩ := fitness_le cert152_check cert152_bound (chrom := chrom) (by rw [tsp152_length]; exact h)
    refine ⟨f, e, hf.trans (le_of_eq ?_)⟩
    show -(((_ : Int) : ℝ) / ((1000 : Int) : ℝ)) = _
    norm_num
  · obtain ⟨hp, f, e, hf⟩ := le_fitness (cities := tsp152Coords) (by rw [tsp152_length]; norm_num) tour152_check tour152_sum
    rw [tsp152_length] at hp
    refine ⟨tour152, hp, f, e, le_trans (le_of_eq ?_) hf⟩
    norm_num

theorem tsp226_length : tsp226Coords.length = 226 := by decide +kernel

/-- C75, `TSP226`: no tour has a fitness above -80089.333, and there is one with at least -80370.276. The documented optimal value is -80369. -/
theorem C75_tsp226_bounds : NoTourAbove 226 (tspFitness tsp226) (-80089.333) ∧ SomeTourAtLeast 226 (tspFitness tsp226) (-80370.276) := by
  constructor
  · intro chrom h
    obtain ⟨f, e, hf⟩ := fitness_le cert226_check cert226_bound (chrom := chrom) (by rw [tsp226_length]; exact h)
    refine ⟨f, e, hf.trans (le_of_eq ?_)⟩
    show -(((_ : Int) : ℝ) / ((1000 : Int) : ℝ)) = _
    norm_num
  · obtain ⟨hp, f, e, hf⟩ := le_fitness (cities := tsp226Coords) (by rw [tsp226_length]; norm_num) tour226_check tour226_sum
    rw [tsp226_length] at hp
    refine ⟨tour226, hp, f, e, le_trans (le_of_eq ?_) hf⟩
    norm_num

theorem tsp299_length : tsp299Coords.length = 299 := by decide +kernel

/-- C75, `TSP299`: no tour has a fitness above -47387.243, and there is one with at least -48194.995. The documented optimal value is -48191. -/
theorem C75_tsp299_bounds : NoTourAbove 299 (tspFitness tsp299) (-47387.243) ∧ SomeTourAtLeast 299 (tspFitness tsp299) (-48194.995) := by
  constructor
  · intro chrom h
    obtain ⟨f, e, hf⟩ := fitness_le cert299_check cert299_bound (chrom := chrom) (by rw [tsp299_length]; exact h)
    refine ⟨f, e, hf.trans (le_of_eq ?_)⟩
    show -(((_ : Int) : ℝ) / ((1000 : Int) : ℝ)) = _
    norm_num
  · obtain ⟨hp, f, e, hf⟩ := le_fitness (cities := tsp299Coords) (by rw [tsp299_length]; norm_num) tour299_check tour299_sum
    rw [tsp299_length] at hp
    refine ⟨tour299, hp, f, e, le_trans (le_of_eq ?_) hf⟩
    norm_num

theorem tsp439_length : tsp439Coords.length = 439 := by decide +kernel

/-- C75, `TSP439`: no tour has a fitness above -105928.493, and there is one with at least -107215.402. The documented optimal value is -107217. -/
theorem C75_tsp439_bounds : NoTourAbove 439 (tspFitness tsp439) (-105928.493) ∧ SomeTourAtLeast 439 (tspFitness tsp439) (-107215.402) := by
  constructor
  · intro chrom h
    obtain ⟨f, e, hf⟩ := fitness_le cert439_check cert439_bound (chrom := chrom) (by rw [tsp439_length]; exact h)
    refine ⟨f, e, hf.trans (le_of_eq ?_)⟩
    show -(((_ : Int) : ℝ) / ((1000 : Int) : ℝ)) = _
    norm_num
  · obtain ⟨hp, f, e, hf⟩ := le_fitness (cities := tsp439Coords) (by rw [tsp439_length]; norm_num) tour439_check tour439_sum
    rw [tsp439_length] at hp
    refine ⟨tour439, hp, f, e, le_trans (le_of_eq ?_) hf⟩
    norm_num

/-- C75 violated: no tour of `TSP52` has the documented optimal value of -7542, or comes nearer to it than 2.36. -/
theorem C75_tsp52_violated : NoTourAbove 52 (tspFitness tsp52) (tsp52.optimalValue - 2.36) ∧
    ¬ IsOptimalValue 52 (tspFitness tsp52) tsp52.optimalValue := by
  have h : ((tsp52.optimalValue : Int) : ℝ) = -7542 := by
    show ((-7542 : Int) : ℝ) = _
    norm_num
  have hn : NoTourAbove 52 (tspFitness tsp52) (tsp52.optimalValue - 2.36) := by
    intro chrom hp
    obtain ⟨f, e, hf⟩ := C75_tsp52_bounds.1 chrom hp
    refine ⟨f, e, ?_⟩
    rw [h]
    norm_num at hf ⊢
    linarith
  refine ⟨hn, ?_⟩
  rintro ⟨-, chrom, hp, f, e, hf⟩
  obtain ⟨f', e', hf'⟩ := hn chrom hp
  rw [e] at e'
  cases e'
  norm_num at hf'
  linarith

/-- C75 violated: a tour of `TSP439` is better than the documented optimal value of -107217. -/
theorem C75_tsp439_violated : SomeTourAtLeast 439 (tspFitness tsp439) (tsp439.optimalValue + 1.5) ∧
    ¬ IsOptimalValue 439 (tspFitness tsp439) tsp439.optimalValue := by
  have h : ((tsp439.optimalValue : Int) : ℝ) = -107217 := by
    show ((-107217 : Int) : ℝ) = _
    norm_num
  have hn : SomeTourAtLeast 439 (tspFitness tsp439) (tsp439.optimalValue + 1.5) := by
    obtain ⟨chrom, hp, f, e, hf⟩ := C75_tsp439_bounds.2
    refine ⟨chrom, hp, f, e, ?_⟩
    rw [h]
    norm_num at hf ⊢
    linarith
  refine ⟨hn, ?_⟩
  rintro ⟨hb, -⟩
  obtain ⟨chrom, hp, f, e, hf⟩ := hn
  obtain ⟨f', e', hf'⟩ := hb chrom hp
  rw [e] at e'
  cases e'
  norm_num at hf
  linarith

/-- The seven problems with the number of their cities. -/
def tspProblems : List (Nat × TspInstance) :=
  [(52, tsp52), (76, tsp76), (124, tsp124), (152, tsp152), (226, tsp226), (299, tsp299), (439, tsp439)]

/-- C75 (partial): in none of the problems is a tour better than the documented optimal value by more than 2.9 %, and some tour is worse by
at most 4. Missing: whether the documented value is the best one; it is not for `TSP52` and `TSP439`. -/
theorem C75_documented_partial : ∀ P ∈ tspProblems, P.2.cities.length = P.1 ∧
    NoTourAbove P.1 (tspFitness P.2) (P.2.optimalValue * 0.971) ∧ SomeTourAtLeast P.1 (tspFitness P.2) (P.2.optimalValue - 4) := by
  have key : ∀ (n : Nat) (I : TspInstance) (v a b : ℝ), I.cities.length = n → ((I.optimalValue : Int) : ℝ) = v →
      NoTourAbove n (tspFitness I) a ∧ SomeTourAtLeast n (tspFitness I) b → a ≤ v * 0.971 → v - 4 ≤ b →
      I.cities.length = n ∧ NoTourAbove n (tspFitness I) (I.optimalValue * 0.971) ∧ SomeTourAtLeast n (tspFitness I) (I.optimalValue - 4) := by
    rintro n I v a b hl hv ⟨h1, chrom, hp, f, e, hf⟩ ha hb
    rw [hv]
    refine ⟨hl, ?_, chrom, hp, f, e, hb.trans hf⟩
    intro chrom hp
    obtain ⟨f, e, hf⟩ := h1 chrom hp
    exact ⟨f, e, hf.trans ha⟩
  intro P hP
  simp only [tspProblems, List.mem_cons, List.not_mem_nil, or_false] at hP
  rcases hP with rfl | rfl | rfl | rfl | rfl | rfl | rfl
  · exact key 52 tsp52 (-7542) _ _ tsp52_length (by show ((-7542 : Int) : ℝ) = _; norm_num) C75_tsp52_bounds (by norm_num) (by norm_num)
  · exact key 76 tsp76 (-108159) _ _ tsp76_length (by show ((-108159 : Int) : ℝ) = _; norm_num) C75_tsp76_bounds (by norm_num) (by norm_num)
  · exact key 124 tsp124 (-59030) _ _ tsp124_length (by show ((-59030 : Int) : ℝ) = _; norm_num) C75_tsp124_bounds (by norm_num) (by norm_num)
  · exact key 152 tsp152 (-73682) _ _ tsp152_length (by show ((-73682 : Int) : ℝ) = _; norm_num) C75_tsp152_bounds (by norm_num) (by norm_num)
  · exact key 226 tsp226 (-80369) _ _ tsp226_length (by show ((-80369 : Int) : ℝ) = _; norm_num) C75_tsp226_bounds (by norm_num) (by norm_num)
  · exact key 299 tsp299 (-48191) _ _ tsp299_length (by show ((-48191 : Int) : ℝ) = _; norm_num) C75_tsp299_bounds (by norm_num) (by norm_num)
  · exact key 439 tsp439 (-107217) _ _ tsp439_length (by show ((-107217 : Int) : ℝ) = _; norm_num) C75_tsp439_bounds (by norm_num) (by norm_num)

/-- The problems are not degenerate: the fitness of the tour that visits the cities in the order of their numbers is the negative length of a closed
tour through all the cities. -/
example : ∃ f, tspFitness tsp52 (List.range 51) = some f ∧ f ≤ -7544 ∧
    f = -tourLength ((planePoints tsp52.cities).getD 51 (0, 0)) ((List.range 51).map (fun i => (planePoints tsp52.cities).getD i (0, 0))) := by
  obtain ⟨f, e, hf⟩ := C75_tsp52_bounds.1 (List.range 51) (List.Perm.refl _)
  have hl : (planePoints tsp52.cities).length = 52 := by
    rw [planePoints, List.length_map]
    exact tsp52_length
  have h := (C54_tsp_tour_length (planePoints tsp52.cities) (by omega) (List.range 51) (by rw [hl])).1
  rw [hl] at h
  have e' : tspFitness tsp52 (List.range 51) = tspInvoke (planePoints tsp52.cities) (List.range 51) := rfl
  rw [e', h] at e
  refine ⟨f, by rw [e', h]; exact e, ?_, (Option.some.inj e).symm⟩
  norm_num at hf ⊢
  linarith

end Gapp.Props
